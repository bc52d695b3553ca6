import Verif.Client.Steps

/-! # The client's flight, the server's second flight, and traffic keep the invariant -/

namespace Tlsn.Client

variable {cfg : ClientCfg} {fl : Flags} {L : List Ev} {v : View}

theorem Triple.and {α : Type} {P : View → Prop} {Q : α → View → Prop} {E : View → Prop} {p : Prop} {f : M Common α}
    (h : Triple P f Q E) (hp : p) : Triple P f (fun a v => Q a v ∧ p) E :=
  h.imp (fun _ => id) fun _ _ hq => ⟨hq, hp⟩

theorem emit_spec (W : World) (t : HandshakeHash) (m : HandshakeMessage) (ht : TrOk cfg t L)
    (hd : ∀ v, At cfg quiet L v → Disclosed cfg v.log (.handshake m)) :
    Triple (At cfg quiet L) (emit W t (.handshake m))
      (fun t v => At cfg quiet (L ++ [.clear (.handshake m)]) v ∧ TrOk cfg t (L ++ [.clear (.handshake m)])) (Weak cfg) := by
  unfold emit
  refine Triple.bind (Triple.clearAt W _ _ rfl rfl hd) fun _ => ?_
  exact Triple.pure fun v hv => ⟨hv, ht.add rfl⟩

theorem suite_usable (suite scheme : UInt16) (h : suite = 0xc02b ∨ suite = 0xc02f)
    (hu : suiteUsable suite (schemeAlg scheme) = true) : scheme ∈ Session.rsaSchemes ↔ suite = 0xc02f := by
  have h1 : scheme ∈ Session.rsaSchemes ↔ schemeAlg scheme = .rsa := by
    unfold schemeAlg
    split
    · rename_i h; simpa [Session.rsaSchemes] using h
    · rename_i h
      refine ⟨fun h' => absurd h' h, fun h' => ?_⟩
      split at h' <;> cases h'
  rw [h1]
  generalize schemeAlg scheme = alg at hu
  rcases h with rfl | rfl <;> cases alg <;> revert hu <;> decide

theorem now_spec (W : World) :
    Triple (At cfg fl L) (askNow W) (fun t => At cfg fl (L ++ [.now t])) (Weak cfg) := by
  unfold askNow
  refine Triple.get fun c _ => ?_
  refine Triple.bind (Q := fun _ => At cfg fl (L ++ [.now (W.now c.log)]))
    (Triple.note fun v hv => hv.pushSig (e := .now (W.now c.log)) rfl trivial (by simp)) fun _ => ?_
  exact Triple.pure fun _ => id

theorem verify_spec (W : World) (x : Ctx) (d : Session) (hc : d.Choice cfg) {L' : List Ev} (hx : CtxOk cfg d x L') :
    Triple (At cfg quiet L) (verifyServer cfg W x (certOf d) (kxOf d))
      (fun _ v => ∃ t, At cfg quiet (L ++ [.now t]) v ∧ ({ d with now := t } : Session).Verified cfg) (Weak cfg) := by
  unfold verifyServer
  split
  · exact Triple.failAt _
  · rename_i leaf inter hchain
    refine Triple.bind (now_spec W) fun t => ?_
    split
    · exact Triple.abortAt W _ _
    · rename_i hcert
      split
      · exact Triple.failAt _
      · rename_i huse
        split
        · exact Triple.abortAt W _ _
        · rename_i hsig
          refine Triple.pure fun v hv => ⟨t, hv, ⟨leaf, inter, hchain, hcert, ?_⟩, ?_⟩
          · rw [hx.client, hx.server] at hsig
            exact hsig
          · rw [hx.suite] at huse
            exact suite_usable _ _ hc.suite (by simpa [kxOf] using huse)

theorem emitCertificate_spec (W : World) (d : Session) (t : HandshakeHash)
    (ht : TrOk cfg t (d.upToDone ++ [.now d.now])) (ho : d.Offer cfg) (hc : d.Choice cfg) (hst : d.Status) (hk : d.Kx)
    (hv : d.Verified cfg) :
    Triple (At cfg quiet (d.upToDone ++ [.now d.now])) (emitCertificate W (authOf cfg d) t)
      (fun t v => At cfg quiet (d.upToClientCert cfg) v ∧ TrOk cfg t (d.upToClientCert cfg)) (Weak cfg) := by
  unfold emitCertificate authOf
  cases hr : d.request with
  | none =>
    have : d.upToClientCert cfg = d.upToDone ++ [.now d.now] := by simp [Session.upToClientCert, hr]
    rw [this]
    exact Triple.pure fun v hv => ⟨hv, ht⟩
  | some r =>
    cases hres : cfg.resolve r.2.caNames r.2.sigSchemes with
    | none =>
      have : d.upToClientCert cfg = (d.upToDone ++ [.now d.now]) ++ [.clear (.handshake ⟨0x0b, .certificate []⟩)] := by
        simp [Session.upToClientCert, hr, Session.identity, hres]
      rw [this]
      simp only [Option.map_some, hres]
      exact emit_spec W t _ ht fun v hat => ⟨fun typ chain e => ⟨d, ho, hc, hst, hk, hv, hat.sig, by rw [hr]; rfl, by
        cases e; simp [Session.identity, hr, hres]⟩, by simp⟩
    | some y =>
      obtain ⟨chain, scheme⟩ := y
      have : d.upToClientCert cfg = (d.upToDone ++ [.now d.now]) ++ [.clear (.handshake ⟨0x0b, .certificate chain⟩)] := by
        simp [Session.upToClientCert, hr, Session.identity, hres]
      rw [this]
      simp only [Option.map_some, hres]
      exact emit_spec W t _ ht fun v hat => ⟨fun typ chain e => ⟨d, ho, hc, hst, hk, hv, hat.sig, by rw [hr]; rfl, by
        cases e; simp [Session.identity, hr, hres]⟩, by simp⟩

/-- The events of the client's certificate verify message. -/
def cvEvents (cfg : ClientCfg) (d : Session) : List Ev :=
  match d.identity cfg with
  | some (_, scheme) => [.sign scheme (transcriptOf (d.upToClientKx cfg)) (.ok d.sig),
      .clear (.handshake ⟨0x0f, .certificateVerify ⟨scheme, d.sig⟩⟩)]
  | none => []

theorem upToCcs_eq (d : Session) : d.upToCcs cfg = d.upToClientKx cfg ++ cvEvents cfg d ++ [.clear .changeCipherSpec] := rfl

theorem emitCertVerify_spec (W : World) (d : Session) (t : HandshakeHash) (ht : TrOk cfg t (d.upToClientKx cfg))
    (hok : d.ServerOk cfg) :
    Triple (At cfg quiet (d.upToClientKx cfg)) (emitCertVerify W (authOf cfg d) t)
      (fun t v => ∃ sig, At cfg quiet (d.upToClientKx cfg ++ cvEvents cfg { d with sig := sig }) v ∧
        TrOk cfg t (d.upToClientKx cfg ++ cvEvents cfg { d with sig := sig })) (Weak cfg) := by
  unfold emitCertVerify
  cases hid : d.identity cfg with
  | none =>
    have hcv : ∀ sig, cvEvents cfg { d with sig := sig } = [] := by
      intro sig
      unfold cvEvents
      rw [show ({ d with sig := sig } : Session).identity cfg = none from hid]
    have : ∀ chain scheme, authOf cfg d ≠ some (.verify chain scheme) := by
      intro chain scheme h
      unfold authOf at h
      unfold Session.identity at hid
      cases hr : d.request with
      | none => rw [hr] at h; cases h
      | some r =>
        rw [hr] at h hid
        simp only [Option.bind_some, Option.map_some, Option.some.injEq] at h hid
        rw [hid] at h
        cases h
    split
    · rename_i chain scheme h
      exact absurd h (this _ _)
    · exact Triple.pure fun v hv => ⟨[], by rw [hcv]; simpa using hv, by rw [hcv]; simpa using ht⟩
  | some y =>
    obtain ⟨chain, scheme⟩ := y
    have hauth : authOf cfg d = some (.verify chain scheme) := by
      unfold authOf
      unfold Session.identity at hid
      cases hr : d.request with
      | none => rw [hr] at hid; cases hid
      | some r =>
        rw [hr] at hid
        simp only [Option.bind_some] at hid
        simp [hid]
    rw [hauth]
    simp only
    cases hca : t.clientAuth with
    | none =>
      have : t.takeHandshakeBuf = ({ t with clientAuth := none }, none) := by rw [HandshakeHash.takeHandshakeBuf, hca]
      rw [this]
      exact Triple.failAt _
    | some b =>
      have : t.takeHandshakeBuf = (t.abandonClientAuth, some (transcriptOf (d.upToClientKx cfg))) := by
        rw [HandshakeHash.takeHandshakeBuf, hca, ht.auth b hca]
        rfl
      rw [this]
      simp only
      have hcv : ∀ sig, cvEvents cfg { d with sig := sig } = [.sign scheme (transcriptOf (d.upToClientKx cfg)) (.ok sig),
          .clear (.handshake ⟨0x0f, .certificateVerify ⟨scheme, sig⟩⟩)] := by
        intro sig
        unfold cvEvents
        rw [show ({ d with sig := sig } : Session).identity cfg = some (chain, scheme) from hid]
        rfl
      refine Triple.bind (Triple.askAt (fun _ => rfl) (fun v hv _ => ⟨d, hok, ⟨chain, hid⟩, hv.sig, rfl⟩) (by simp)) fun sig => ?_
      refine (emit_spec W _ _ (ht.forget.skip rfl) fun v hv => ⟨by simp, fun typ dss e => ⟨d, hok, ?_, ?_⟩⟩).imp (fun _ => id) fun t v h => ⟨sig, ?_, ?_⟩
      · cases e; exact ⟨chain, hid⟩
      · cases e; exact hv.sig
      · rw [hcv]; simpa using h.1
      · rw [hcv]; simpa using h.2

theorem ecdhParams_whole (g : UInt16) (k : Bytes) (hk : k.length < 2 ^ 8) :
    codecEcdhParams.read.whole (codecEcdhParams.encode (g, k)) = some (g, k) := by
  have hl : codecEcdhParams.Law fun p => p.2.length < 2 ^ 8 :=
    (((law_u8.check (· == 3)).seq (law_u16.seq law_payloadU8)).fields (fun _ => rfl) (fun x hx => by
      have : x.1 = 3 := by simpa using hx.1
      rw [← this])).mono fun x => by simp
  exact (hl.whole _ _).2 ⟨hk, rfl⟩

theorem prepare_spec (W : World) (d : Session) (hd : d.ServerOk cfg) :
    Triple (At cfg quiet (d.upToCcs cfg))
      (ask (W.prepare · d.serverData) (.prepare d.serverData) >>= fun _ : Unit => M.modify fun c => { c with encrypting := true })
      (fun _ => At cfg (true, false, false, false) (d.upToPrepared cfg)) (Weak cfg) := by
  refine Triple.bind (Q := fun _ v => Good cfg v.log ∧ v.flags = quiet ∧ significant v.log = d.upToPrepared cfg)
    (Triple.ask (fun v a hv => ?_) fun v x hv hx => ?_) fun _ => Triple.modify fun c hc => ?_
  · refine ⟨hv.weak.good.snoc ⟨d, hd, hv.sig, rfl⟩, hv.flags, ?_⟩
    rw [View.push, significant_append, hv.sig]
    rfl
  · exact hv.weak.push ⟨d, hd, hv.sig, rfl⟩ (fun hs h => by
      cases h
      exact hx () rfl)
  · obtain ⟨h1, h2, h3⟩ := hc
    have hsnd : c.maySend = false := by
      have := h2
      simp only [View.flags, Common.view, quiet, Prod.mk.injEq] at this
      exact this.2.2.1
    refine ⟨⟨h1, fun _ => ⟨d, hd, ?_⟩, fun h => (by cases h), fun h => absurd (hsnd.symm.trans h) (by simp)⟩, ?_, h3⟩
    · rw [show ({ c with encrypting := true } : Common).view.log = c.view.log from rfl, h3]
      exact List.prefix_rfl
    · have := h2
      simp only [View.flags, Common.view, quiet, Prod.mk.injEq] at this ⊢
      exact ⟨trivial, this.2⟩

theorem bind_assoc' {σ α β γ : Type} (f : M σ α) (g : α → M σ β) (h : β → M σ γ) :
    f >>= (fun a => g a >>= h) = (f >>= g) >>= h := by
  funext s
  show M.bind f (fun a => M.bind (g a) h) s = M.bind (M.bind f g) h s
  unfold M.bind
  rcases f s with ⟨s1, r⟩
  cases r <;> rfl

theorem serverDone_spec (W : World) (x : Ctx) (auth : Option ClientAuth) (m : MessagePayload) (d : Session) (ho : d.Offer cfg)
    (hc : d.Choice cfg) (hst : d.Status) (hk : d.Kx) (hx : CtxOk cfg d x d.upToRequest) (hauth : auth = authOf cfg d) :
    Triple (At cfg quiet (d.upToRequest ++ [.handle m])) (handleServerDone cfg W x (certOf d) (kxOf d) auth m)
      (fun s => Live cfg s) (Weak cfg) := by
  subst hauth
  unfold handleServerDone
  split
  · rename_i typ
    have htr := hx.tr.add (e := .handle (.handshake ⟨typ, .serverHelloDone⟩)) rfl
    refine Triple.bind (Q := fun _ => At cfg quiet ({ d with doneTyp := typ } : Session).upToDone)
      (Triple.checkAligned W (fun _ h => h.weak) fun v hv => hv) fun _ => ?_
    refine Triple.bind (verify_spec W x d hc hx) fun _ => Triple.exists fun now => Triple.fact fun hver => ?_
    have hauth : authOf cfg d = authOf cfg { d with doneTyp := typ, now := now } := rfl
    rw [hauth]
    refine Triple.bind (emitCertificate_spec W { d with doneTyp := typ, now := now } _ (htr.skip rfl)
      ⟨ho.1, ho.2, ho.3, ho.4, ho.5, ho.6, ho.7, ho.8, ho.9, ho.10, ho.11, ho.12⟩
      ⟨hc.1, hc.2, hc.3, hc.4, hc.5, hc.6, hc.7, hc.8, hc.9, hc.10⟩ hst hk ⟨hver.1, hver.2⟩) fun t => ?_
    refine Triple.fact fun ht => ?_
    have hlen : d.kx.publicKey.length < 2 ^ 8 := by
      have : codecEcdheServerKeyExchange.read.whole d.kxBytes = some d.kx := hk
      exact ((law_ecdhe.whole _ _).1 this).1.1
    have hdec : codecEcdhParams.read.whole (kxOf d).params = some (d.kx.namedGroup, d.kx.publicKey) := by
      rw [← ecdhParams_whole d.kx.namedGroup _ hlen, params_eq]
      rfl
    rw [hdec]
    simp only
    refine Triple.bind (Triple.askAt (fun _ => rfl) (fun v hv _ => ⟨{ d with doneTyp := typ, now := now },
      ⟨ho.1, ho.2, ho.3, ho.4, ho.5, ho.6, ho.7, ho.8, ho.9, ho.10, ho.11, ho.12⟩,
      ⟨hc.1, hc.2, hc.3, hc.4, hc.5, hc.6, hc.7, hc.8, hc.9, hc.10⟩, hst, hk, ⟨hver.1, hver.2⟩, hv.sig⟩) (by simp))
      fun share => ?_
    split
    · exact Triple.failAt _
    · rename_i hgroup
      have hgroup' : share.group = d.kx.namedGroup := by simpa using hgroup
      have ht1 : TrOk cfg t (({ d with doneTyp := typ, now := now } : Session).upToClientCert cfg ++ [.keyShare (.ok share)]) :=
        ht.skip rfl
      refine Triple.bind (Q := fun t v =>
        At cfg quiet (({ d with doneTyp := typ, now := now, share := share } : Session).upToClientKx cfg) v ∧
        TrOk cfg t (({ d with doneTyp := typ, now := now, share := share } : Session).upToClientKx cfg)) ?_ fun t => ?_
      · refine (emit_spec W t _ ht1 fun _ _ => Plain.disclosed ⟨by simp, by simp⟩ _).imp (fun _ => id) fun t v h => ?_
        have : ({ d with doneTyp := typ, now := now, share := share } : Session).upToClientKx cfg =
          ({ d with doneTyp := typ, now := now } : Session).upToClientCert cfg ++ [.keyShare (.ok share)] ++
            [.clear (.handshake ⟨0x10, .clientKeyExchange (codecPayloadU8.encode share.payload)⟩)] := by
          rw [List.append_assoc]
          rfl
        rw [this]
        exact h
      · refine Triple.fact fun ht => ?_
        have hauth : authOf cfg { d with doneTyp := typ, now := now } =
          authOf cfg { d with doneTyp := typ, now := now, share := share } := rfl
        rw [hauth]
        refine Triple.bind (emitCertVerify_spec W _ t ht
          ⟨⟨ho.1, ho.2, ho.3, ho.4, ho.5, ho.6, ho.7, ho.8, ho.9, ho.10, ho.11, ho.12⟩,
            ⟨hc.1, hc.2, hc.3, hc.4, hc.5, hc.6, hc.7, hc.8, hc.9, hc.10⟩, hst, hk, ⟨hver.1, hver.2⟩, hgroup'⟩) fun t => Triple.exists fun sig => Triple.fact fun ht => ?_
        have hok : ({ d with doneTyp := typ, now := now, share := share, sig := sig } : Session).ServerOk cfg :=
          ⟨⟨ho.1, ho.2, ho.3, ho.4, ho.5, ho.6, ho.7, ho.8, ho.9, ho.10, ho.11, ho.12⟩,
            ⟨hc.1, hc.2, hc.3, hc.4, hc.5, hc.6, hc.7, hc.8, hc.9, hc.10⟩, hst, hk, ⟨hver.1, hver.2⟩, hgroup'⟩
        refine Triple.bind (Q := fun _ =>
          At cfg quiet (({ d with doneTyp := typ, now := now, share := share, sig := sig } : Session).upToCcs cfg))
          (Triple.clearAt W _ _ rfl rfl fun _ _ => Plain.disclosed ⟨by simp, by simp⟩ _) fun _ => ?_
        have ht2 : TrOk cfg t (({ d with doneTyp := typ, now := now, share := share, sig := sig } : Session).upToCcs cfg) :=
          ht.skip rfl
        have hdata : (⟨x.serverRandom, ⟨d.kx.namedGroup, d.kx.publicKey⟩, (certOf d).chain, (certOf d).ocsp, (certOf d).scts,
            (kxOf d).params, (kxOf d).sig⟩ : HandshakeData) =
            ({ d with doneTyp := typ, now := now, share := share, sig := sig } : Session).serverData := by
          rw [hx.server]
          rfl
        rw [hdata, bind_assoc']
        refine Triple.bind (prepare_spec W _ hok) fun _ => ?_
        have ht3 : TrOk cfg t (({ d with doneTyp := typ, now := now, share := share, sig := sig } : Session).upToPrepared cfg) :=
          ht2.skip rfl
        have hcur : t.currentHash = cfg.hash (transcriptOf
            (({ d with doneTyp := typ, now := now, share := share, sig := sig } : Session).upToPrepared cfg)) := by
          rw [HandshakeHash.currentHash, ht3.alg, ht3.ctx]
        refine Triple.bind (Triple.askAt (fun _ => rfl) (fun v hv _ => ⟨_, hok, hv.sig, hcur⟩) (by simp)) fun vd => ?_
        have hok' : ({ d with doneTyp := typ, now := now, share := share, sig := sig, vd := vd } : Session).ServerOk cfg :=
          ⟨⟨ho.1, ho.2, ho.3, ho.4, ho.5, ho.6, ho.7, ho.8, ho.9, ho.10, ho.11, ho.12⟩,
            ⟨hc.1, hc.2, hc.3, hc.4, hc.5, hc.6, hc.7, hc.8, hc.9, hc.10⟩, hst, hk, ⟨hver.1, hver.2⟩, hgroup'⟩
        have hfin : ({ d with doneTyp := typ, now := now, share := share, sig := sig, vd := vd } : Session).upToFinished cfg =
            ({ d with doneTyp := typ, now := now, share := share, sig := sig } : Session).upToPrepared cfg ++
              [.clientVd t.currentHash (.ok vd)] ++ [.protect (finishedMsg vd)] := by
          rw [hcur, List.append_assoc]
          rfl
        refine Triple.bind (Q := fun _ => At cfg (true, false, false, false)
          (({ d with doneTyp := typ, now := now, share := share, sig := sig, vd := vd } : Session).upToFinished cfg))
          (Triple.sendProtect W _ _ (At cfg (true, false, false, false)
          (({ d with doneTyp := typ, now := now, share := share, sig := sig, vd := vd } : Session).upToFinished cfg))
            (fun v hv => ?_) (fun o ho' v r hv => ?_) (fun _ => id) fun v hv => hv.weak) fun _ => ?_
        · rw [hfin]
          exact hv.pushSig rfl (hv.weak.enc hv.enc) (by simp)
        · exact stable_at.push _ _ hv rfl ⟨fun h => absurd (ho'.symm.trans h) (by simp [finishedMsg, MessagePayload.contentType]),
            hv.weak.enc hv.enc⟩
        · refine Triple.pure fun v hv => hv.live ⟨rfl, _, hok', rfl, ?_⟩
          rw [hfin]
          exact (ht3.skip rfl).add rfl
  · exact Triple.failAt _

theorem done_spec (W : World) (x : Ctx) (cert : CertDetails) (kx : KxDetails) (auth : Option ClientAuth) (m : MessagePayload)
    (h : Stage cfg quiet L (.done x cert kx auth)) :
    Triple (At cfg quiet (L ++ [.handle m])) (handleServerDone cfg W x cert kx auth m) (fun s => Live cfg s) (Weak cfg) := by
  obtain ⟨-, d, ho, hc, hst, hk, rfl, hx, rfl, rfl, rfl⟩ := h
  exact serverDone_spec W x _ m d ho hc hst hk hx rfl

theorem doneOrReq_spec (W : World) (x : Ctx) (cert : CertDetails) (kx : KxDetails) (m : MessagePayload)
    (h : Stage cfg quiet L (.doneOrReq x cert kx)) :
    Triple (At cfg quiet (L ++ [.handle m])) (handleDoneOrReq cfg W x cert kx m) (fun s => Live cfg s) (Weak cfg) := by
  obtain ⟨-, d, ho, hc, hst, hk, rfl, hx, rfl, rfl⟩ := h
  unfold handleDoneOrReq
  split
  · rename_i t r
    have htr := hx.tr.add (e := .handle (.handshake ⟨t, .certificateRequest r⟩)) rfl
    exact Triple.pure fun v hv => hv.live ⟨rfl, { d with request := some (t, r) },
        ⟨ho.1, ho.2, ho.3, ho.4, ho.5, ho.6, ho.7, ho.8, ho.9, ho.10, ho.11, ho.12⟩,
        ⟨hc.1, hc.2, hc.3, hc.4, hc.5, hc.6, hc.7, hc.8, hc.9, hc.10⟩, hst, hk, by simp [Session.upToRequest]; rfl,
        ⟨hx.1, hx.2, hx.3, htr⟩, rfl, rfl, rfl⟩
  · have hL : ({ d with request := none } : Session).upToRequest = d.upToKx := by simp [Session.upToRequest]; rfl
    have := serverDone_spec (cfg := cfg) W { x with transcript := x.transcript.abandonClientAuth } none m
      { d with request := none }
      ⟨ho.1, ho.2, ho.3, ho.4, ho.5, ho.6, ho.7, ho.8, ho.9, ho.10, ho.11, ho.12⟩
      ⟨hc.1, hc.2, hc.3, hc.4, hc.5, hc.6, hc.7, hc.8, hc.9, hc.10⟩ hst hk
      ⟨hx.1, hx.2, hx.3, by rw [hL]; exact hx.tr.forget⟩ rfl
    rw [hL] at this
    exact this

/-! ## The server's second flight -/

theorem ccs_spec (W : World) (t : HandshakeHash) (m : MessagePayload) (h : Stage cfg fl L (.ccs t)) :
    Triple (At cfg fl (L ++ [.handle m])) (handleCcs W t m) (fun s => Live cfg s) (Weak cfg) := by
  obtain ⟨rfl, d, hd, rfl, ht⟩ := h
  unfold handleCcs
  split
  · refine Triple.bind (Q := fun _ => At cfg (true, false, false, false) (d.upToServerCcs cfg))
      (Triple.checkAligned W (fun _ h => h.weak) fun v hv => hv) fun _ => ?_
    refine Triple.bind (Q := fun _ => At cfg (true, true, false, false) (d.upToServerCcs cfg))
      (Triple.modify fun c hc => ?_) fun _ => ?_
    · refine ⟨⟨hc.weak.good, hc.weak.enc, hc.weak.plain, hc.weak.traffic⟩, ?_, hc.sig⟩
      have := hc.flags
      simp only [View.flags, Common.view, Prod.mk.injEq] at this ⊢
      exact ⟨this.1, trivial, this.2.2⟩
    · exact Triple.pure fun v hv => hv.live ⟨rfl, d, hd, rfl, ht.skip rfl⟩
  · exact Triple.failAt _

/-! ## Traffic -/

/-- The whole handshake has taken place, and application data may be sent. -/
structure Open (cfg : ClientCfg) (fl : Flags) (v : View) : Prop where
  weak : Weak cfg v
  flags : v.flags = fl
  auth : ∃ d : Session, d.ServerOk cfg ∧ d.script cfg <+: significant v.log

theorem Open.push {fl : Flags} {e : Ev} (h : Open cfg fl v) (ha : Allowed cfg v.log e)
    (hp : ∀ hs, e ≠ .prepare hs (.ok ())) : Open cfg fl (v.push e) := by
  refine ⟨h.weak.push ha hp, h.flags, ?_⟩
  obtain ⟨d, hd, h1⟩ := h.auth
  exact ⟨d, hd, by rw [View.push, significant_append]; exact h1.trans (List.prefix_append _ _)⟩

theorem Open.pushOut {fl : Flags} (h : Open cfg fl v) (henc : fl.1 = true) (m : OpaqueMessage) (r : Reply Unit) :
    Open cfg fl (v.push (.pushOut m r)) :=
  h.push ⟨fun _ => h.auth, h.weak.enc (by rw [← henc, ← h.flags]; rfl)⟩ (by simp)

theorem flushLoop_spec (W : World) (n : Nat) (hfl : fl.1 = true) :
    Triple (Open cfg fl) (flushLoop W n) (fun _ => Open cfg fl) (Weak cfg) := by
  induction n with
  | zero => exact Triple.pure fun _ => id
  | succ n ih =>
    unfold flushLoop
    refine Triple.get fun c _ => ?_
    split
    · exact Triple.pure fun _ => id
    · refine Triple.bind (Q := fun _ => Open cfg fl) (Triple.modify fun c hc => hc) fun _ => ?_
      refine Triple.bind (Q := fun _ => Open cfg fl) ?_ fun _ => ih
      unfold sendAppData
      refine Triple.get fun c _ => ?_
      exact Triple.pushAll W _ (fun m _ v r hv => hv.pushOut hfl m r) (fun _ => id) fun _ h => h.weak

theorem flushPlaintext_spec (W : World) (hfl : fl.1 = true) :
    Triple (Open cfg fl) (flushPlaintext W) (fun _ => Open cfg fl) (Weak cfg) := by
  unfold flushPlaintext
  refine Triple.get fun c _ => ?_
  split
  · exact flushLoop_spec W _ hfl
  · exact Triple.pure fun _ => id

theorem finished_spec (W : World) (t : HandshakeHash) (m : MessagePayload) (h : Stage cfg fl L (.finished t)) :
    Triple (At cfg fl (L ++ [.handle m])) (handleFinished W t m) (fun s => Live cfg s) (Weak cfg) := by
  obtain ⟨rfl, d, hd, rfl, ht⟩ := h
  unfold handleFinished
  split
  · rename_i typ vd
    have hok : ({ d with finTyp := typ, serverVd := vd } : Session).ServerOk cfg :=
      ⟨⟨hd.1.1, hd.1.2, hd.1.3, hd.1.4, hd.1.5, hd.1.6, hd.1.7, hd.1.8, hd.1.9, hd.1.10, hd.1.11, hd.1.12⟩,
        ⟨hd.2.1, hd.2.2, hd.2.3, hd.2.4, hd.2.5, hd.2.6, hd.2.7, hd.2.8, hd.2.9, hd.2.10⟩, hd.3, hd.4,
        ⟨hd.5.1, hd.5.2⟩, hd.6⟩
    refine Triple.bind (Q := fun _ => At cfg (true, true, false, false)
      (({ d with finTyp := typ, serverVd := vd } : Session).upToServerFinished cfg))
      (Triple.checkAligned W (fun _ h => h.weak) fun v hv => hv) fun _ => ?_
    have hcur : t.currentHash = cfg.hash (transcriptOf
        (({ d with finTyp := typ, serverVd := vd } : Session).upToServerCcs cfg)) := by
      rw [HandshakeHash.currentHash, ht.alg, ht.ctx]
      rfl
    refine Triple.bind (Triple.askAt (fun _ => rfl) (fun v hv _ => ⟨_, hok, hv.sig, hcur⟩) (by simp)) fun expected => ?_
    split
    · rename_i he
      subst he
      have hL : ({ d with finTyp := typ, serverVd := expected } : Session).upToServerFinished cfg ++
          [.serverVd t.currentHash (.ok expected)] =
          ({ d with finTyp := typ, serverVd := expected } : Session).upToVerified cfg := by
        rw [hcur]
        rfl
      rw [hL]
      refine Triple.bind (Q := fun _ v => Open cfg (true, true, true, true) v) ?_ fun _ =>
        Triple.pure fun v hv => ⟨hv.weak, by rw [hv.flags]; exact ⟨rfl, hv.auth⟩⟩
      unfold startTraffic
      refine Triple.bind (Q := fun _ => At cfg (true, true, false, true)
        (({ d with finTyp := typ, serverVd := expected } : Session).upToVerified cfg)) (Triple.modify fun c hc => ?_) fun _ => ?_
      · refine ⟨⟨hc.weak.good, hc.weak.enc, hc.weak.plain, hc.weak.traffic⟩, ?_, hc.sig⟩
        have := hc.flags
        simp only [View.flags, Common.view, Prod.mk.injEq] at this ⊢
        exact ⟨this.1, this.2.1, this.2.2.1, trivial⟩
      · refine Triple.bind (Triple.askAt (fun _ => rfl) (fun v hv _ => ⟨_, hok, hv.sig⟩) (by simp)) fun _ => ?_
        refine Triple.bind (Q := fun _ => Open cfg (true, true, true, true)) (Triple.modify fun c hc => ?_) fun _ =>
          flushPlaintext_spec W rfl
        refine ⟨⟨hc.weak.good, hc.weak.enc, hc.weak.plain, fun _ => ⟨_, hok, ?_⟩⟩, ?_, _, hok, ?_⟩
        · have := hc.sig
          rw [show ({ c with maySend := true } : Common).view.log = c.view.log from rfl, this]
          exact List.prefix_rfl
        · have := hc.flags
          simp only [View.flags, Common.view, Prod.mk.injEq] at this ⊢
          exact ⟨this.1, this.2.1, trivial, this.2.2.2⟩
        · have := hc.sig
          rw [show ({ c with maySend := true } : Common).view.log = c.view.log from rfl, this]
          exact List.prefix_rfl
    · exact Triple.abortAt W _ _
  · exact Triple.failAt _

theorem traffic_spec (m : MessagePayload) :
    Triple (Open cfg fl) (handleTraffic m) (fun s v => s = .traffic ∧ Open cfg fl v) (Weak cfg) := by
  unfold handleTraffic
  split
  · rename_i p
    refine Triple.bind (Q := fun _ => Open cfg fl) ?_ fun _ => Triple.pure fun v hv => ⟨rfl, hv⟩
    unfold takePlaintext
    refine Triple.bind (Q := fun _ => Open cfg fl) (Triple.note fun v hv => hv.push hv.auth (by simp)) fun _ =>
      Triple.modify fun c hc => hc
  · exact Triple.fail fun _ h => h.weak

/-! ## All states -/

theorem handle_spec (W : World) (s : HState) (m : MessagePayload) :
    Triple (fun v => ∃ v0, Live cfg s v0 ∧ v = v0.push (.handle m)) (handle cfg W s m) (fun s => Live cfg s) (Weak cfg) := by
  intro c ⟨v0, hv0, hc⟩
  have hat : At cfg v0.flags (significant v0.log ++ [.handle m]) c.view := by
    rw [hc]
    exact (At.mk hv0.weak rfl rfl).pushSig rfl trivial (by simp)
  have hst := hv0.stage
  revert hat hst
  generalize v0.flags = fl
  generalize significant v0.log = L
  intro hat hst
  cases s with
  | initial => exact Triple.panic (P := Weak cfg) (Q := fun s => Live cfg s) (fun _ => id) c hat.weak
  | serverHello h =>
    obtain ⟨rfl, d, ho, rfl, hr, hb, hs⟩ := hst
    exact serverHello_spec W h m d ho hr hb hs c hat
  | certificate x ms scts => obtain rfl := hst.1; exact certificate_spec x ms scts m hst c hat
  | statusOrKx x scts chain => obtain rfl := hst.1; exact statusOrKx_spec W x scts chain m hst c hat
  | serverKx x cert => obtain rfl := hst.1; exact serverKx_spec W x cert m hst c hat
  | doneOrReq x cert kx => obtain rfl := hst.1; exact doneOrReq_spec W x cert kx m hst c hat
  | done x cert kx auth => obtain rfl := hst.1; exact done_spec W x cert kx auth m hst c hat
  | ccs t => exact ccs_spec W t m hst c hat
  | finished t => exact finished_spec W t m hst c hat
  | traffic =>
    obtain ⟨rfl, d, hd, hp⟩ := hst
    refine (traffic_spec (cfg := cfg) (fl := (true, true, true, true)) m).imp (fun _ => id) (fun s v h => ?_) c
      ⟨hat.weak, hat.flags, d, hd, by rw [hat.sig]; exact hp.trans (List.prefix_append _ _)⟩
    obtain ⟨rfl, h⟩ := h
    exact ⟨h.weak, by rw [h.flags]; exact ⟨rfl, h.auth⟩⟩

end Tlsn.Client
