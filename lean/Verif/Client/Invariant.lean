import Verif.Client.Logic
import Verif.Tls.HandshakeLaws

/-! # The invariant of the handshake -/

namespace Tlsn.Client

abbrev Flags := Bool × Bool × Bool × Bool

def View.flags (v : View) : Flags := (v.enc, v.dec, v.snd, v.rcv)

/-- The flags during the handshake. -/
def quiet : Flags := (false, false, false, false)

/-- Nothing wrong has happened, and these are the flags and the events of the handshake. -/
structure At (cfg : ClientCfg) (fl : Flags) (L : List Ev) (v : View) : Prop where
  weak : Weak cfg v
  flags : v.flags = fl
  sig : significant v.log = L

/-- The transcript hash of the client is over the messages in `L`. -/
structure TrOk (cfg : ClientCfg) (t : HandshakeHash) (L : List Ev) : Prop where
  alg : t.alg = cfg.hash
  ctx : t.ctx = transcriptOf L
  auth : ∀ b, t.clientAuth = some b → b = transcriptOf L

structure CtxOk (cfg : ClientCfg) (d : Session) (x : Ctx) (L : List Ev) : Prop where
  client : x.clientRandom = d.random
  server : x.serverRandom = d.sh.random
  suite : x.suite = d.sh.cipherSuite
  tr : TrOk cfg x.transcript L

def certOf (d : Session) : CertDetails := ⟨d.chain, d.ocsp, d.scts⟩

def kxOf (d : Session) : KxDetails := ⟨d.params, d.kx.dss⟩

def authOf (cfg : ClientCfg) (d : Session) : Option ClientAuth :=
  d.request.map fun r => match cfg.resolve r.2.caNames r.2.sigSchemes with
    | some (chain, scheme) => ClientAuth.verify chain scheme
    | none => .empty

def HasStatus (d : Session) : Prop := ∃ e ∈ d.sh.extensions, e.getType = 0x0005

/-- What a state of the client says about the handshake so far. -/
def Stage (cfg : ClientCfg) (fl : Flags) (L : List Ev) : HState → Prop
  | .initial => fl = quiet ∧ L = []
  | .serverHello h => fl = quiet ∧ ∃ d : Session, d.Offer cfg ∧ L = d.hello ∧ h.random = d.random ∧
      h.buffer.buffer = transcriptOf L ∧ h.sentExts = d.ch.extensions.map ClientExtension.getType
  | .certificate x mayStatus scts => fl = quiet ∧ ∃ d : Session, d.Offer cfg ∧ d.Choice cfg ∧ L = d.upToServerHello ∧
      CtxOk cfg d x L ∧ scts = d.scts ∧ (mayStatus = true → HasStatus d)
  | .statusOrKx x scts chain => fl = quiet ∧ ∃ d : Session, d.Offer cfg ∧ d.Choice cfg ∧ L = d.upToCertificate ∧
      CtxOk cfg d x L ∧ scts = d.scts ∧ chain = d.chain ∧ HasStatus d
  | .serverKx x cert => fl = quiet ∧ ∃ d : Session, d.Offer cfg ∧ d.Choice cfg ∧ d.Status ∧ L = d.upToStatus ∧
      CtxOk cfg d x L ∧ cert = certOf d
  | .doneOrReq x cert kx => fl = quiet ∧ ∃ d : Session, d.Offer cfg ∧ d.Choice cfg ∧ d.Status ∧ d.Kx ∧ L = d.upToKx ∧
      CtxOk cfg d x L ∧ cert = certOf d ∧ kx = kxOf d
  | .done x cert kx auth => fl = quiet ∧ ∃ d : Session, d.Offer cfg ∧ d.Choice cfg ∧ d.Status ∧ d.Kx ∧ L = d.upToRequest ∧
      CtxOk cfg d x L ∧ cert = certOf d ∧ kx = kxOf d ∧ auth = authOf cfg d
  | .ccs t => fl = (true, false, false, false) ∧ ∃ d : Session, d.ServerOk cfg ∧ L = d.upToFinished cfg ∧ TrOk cfg t L
  | .finished t => fl = (true, true, false, false) ∧ ∃ d : Session, d.ServerOk cfg ∧ L = d.upToServerCcs cfg ∧ TrOk cfg t L
  | .traffic => fl = (true, true, true, true) ∧ ∃ d : Session, d.ServerOk cfg ∧ d.script cfg <+: L

/-- The invariant of a connection that has not failed. -/
structure Live (cfg : ClientCfg) (s : HState) (v : View) : Prop where
  weak : Weak cfg v
  stage : Stage cfg v.flags (significant v.log) s

/-! ## Rules -/

variable {cfg : ClientCfg} {fl : Flags} {L : List Ev} {v : View}

theorem At.live {s : HState} (h : At cfg fl L v) (hs : Stage cfg fl L s) : Live cfg s v :=
  ⟨h.weak, by rw [h.flags, h.sig]; exact hs⟩

theorem At.pushSig {e : Ev} (h : At cfg fl L v) (hs : e.significant = true) (ha : Allowed cfg v.log e)
    (hp : ∀ hs, e ≠ .prepare hs (.ok ())) : At cfg fl (L ++ [e]) (v.push e) :=
  ⟨h.weak.push ha hp, h.flags, by rw [View.push, significant_append, h.sig]; simp [significant, hs]⟩

theorem significant_push {v : View} {e : Ev} (h : e.significant = false) :
    significant (v.push e).log = significant v.log := by
  rw [View.push, significant_append]
  simp [significant, h]

theorem stable_at : Stable cfg (At cfg fl L) :=
  ⟨fun _ h => h.weak, fun v e h hs ha => ⟨(stable_weak cfg).push v e h.weak hs ha, h.flags, by
    rw [significant_push hs, h.sig]⟩⟩

theorem stable_live {s : HState} : Stable cfg (Live cfg s) :=
  ⟨fun _ h => h.weak, fun v e h hs ha => ⟨(stable_weak cfg).push v e h.weak hs ha, by
    rw [significant_push hs]; exact h.stage⟩⟩

theorem At.enc (h : At cfg fl L v) : v.enc = fl.1 := by rw [← h.flags]; rfl

theorem At.dec (h : At cfg fl L v) : v.dec = fl.2.1 := by rw [← h.flags]; rfl

theorem Triple.clearAt (W : World) (ver : ProtocolVersion) (m : MessagePayload) (hfl : fl.1 = false)
    (hm : (Ev.clear m).significant = true) (hd : ∀ v, At cfg fl L v → Disclosed cfg v.log m) {E : View → Prop} :
    Triple (At cfg fl L) (sendMsg W ver m false) (fun _ => At cfg fl (L ++ [.clear m])) E :=
  Triple.sendClear W _ _ fun _ hx => hx.pushSig hm ⟨hx.weak.plain (hx.enc.trans hfl), hd _ hx⟩ (by simp)

theorem Triple.askAt {α : Type} {r : List Ev → Reply α} {ev : Reply α → Ev} {toErr : Nat → CErr}
    (hs : ∀ x, (ev x).significant = true) (ha : ∀ v, At cfg fl L v → ∀ x, Allowed cfg v.log (ev x))
    (hp : ∀ x hs, ev x ≠ .prepare hs (.ok ())) :
    Triple (At cfg fl L) (Tlsn.Client.ask r ev toErr) (fun a => At cfg fl (L ++ [ev (.ok a)])) (Weak cfg) :=
  Triple.ask (fun v _ hv => hv.pushSig (hs _) (ha v hv _) (hp _)) fun v x hv _ => hv.weak.push (ha v hv x) (hp x)

theorem TrOk.add {t : HandshakeHash} (h : TrOk cfg t L) {e : Ev} {m : HandshakeMessage}
    (he : e.transcript = m.encode) : TrOk cfg (t.addMessage (.handshake m)) (L ++ [e]) := by
  refine ⟨h.alg, ?_, ?_⟩
  · show t.ctx ++ m.encode = _
    rw [h.ctx, transcriptOf_append]
    simp [transcriptOf, he]
  · intro b hb
    have : t.clientAuth.map (· ++ m.encode) = some b := hb
    cases ha : t.clientAuth with
    | none => rw [ha] at this; cases this
    | some b' =>
      rw [ha] at this
      cases this
      rw [h.auth b' ha, transcriptOf_append]
      simp [transcriptOf, he]

theorem TrOk.skip {t : HandshakeHash} (h : TrOk cfg t L) {e : Ev} (he : e.transcript = []) : TrOk cfg t (L ++ [e]) := by
  have : transcriptOf (L ++ [e]) = transcriptOf L := by rw [transcriptOf_append]; simp [transcriptOf, he]
  exact ⟨h.alg, by rw [this]; exact h.ctx, by rw [this]; exact h.auth⟩

theorem TrOk.forget {t : HandshakeHash} (h : TrOk cfg t L) : TrOk cfg t.abandonClientAuth L :=
  ⟨h.alg, h.ctx, fun b hb => by cases hb⟩

/-! ## The start -/

theorem mem_opt {α : Type} {a : α} {l : List α} {p : Prop} [Decidable p] : a ∈ (if p then l else []) ↔ p ∧ a ∈ l := by
  split <;> simp [*]

theorem offer_clientHello (cfg : ClientCfg) (random sessionId : Bytes) :
    ({ random := random, sessionId := sessionId
       ch := ⟨.tls12, random, sessionId, cipherSuites ++ [0x00ff], [0], clientExtensions cfg⟩ } : Session).Offer cfg := by
  have hsni : ∀ e, e ∈ sniExtensions cfg ↔ ∃ n, cfg.sni = some n ∧ cfg.enableSni = true ∧ e = .serverName [⟨0, .hostName n⟩] := by
    intro e
    unfold sniExtensions
    cases cfg.sni <;> cases cfg.enableSni <;> simp
  have hscts : ∀ e, e ∈ (if cfg.requestScts then [ClientExtension.signedCertificateTimestampRequest] else []) ↔
      cfg.requestScts = true ∧ e = .signedCertificateTimestampRequest := by
    intro e
    cases cfg.requestScts <;> simp
  have halpn : ∀ e, e ∈ (if cfg.alpn.isEmpty then [] else [ClientExtension.protocols cfg.alpn]) ↔
      cfg.alpn ≠ [] ∧ e = .protocols cfg.alpn := by
    intro e
    cases cfg.alpn <;> simp
  have hmem : ∀ e, e ∈ clientExtensions cfg ↔ e ∈ [ClientExtension.supportedVersions [.tls12], .ecPointFormats [0],
      .namedGroups [0x0017], .signatureAlgorithms cfg.verifySchemes, .certificateStatusRequest (.ocsp [] [])] ∨
      (∃ n, cfg.sni = some n ∧ cfg.enableSni = true ∧ e = .serverName [⟨0, .hostName n⟩]) ∨
      (cfg.requestScts = true ∧ e = .signedCertificateTimestampRequest) ∨ (cfg.alpn ≠ [] ∧ e = .protocols cfg.alpn) := by
    intro e
    unfold clientExtensions
    rw [List.mem_append, List.mem_append, List.mem_append, hsni, hscts, halpn]
    simp only [or_assoc]
  constructor <;> intros <;> first | rfl | (rw [hmem]; simp)

theorem start_spec (cfg : ClientCfg) (W : World) :
    Triple (Live cfg .initial) (startHandshake cfg W) (fun s => Live cfg s) (Weak cfg) := by
  unfold startHandshake
  refine Triple.pre (P := At cfg quiet []) ?_ fun v hv => ⟨hv.weak, hv.stage.1, hv.stage.2⟩
  refine Triple.bind (Triple.askAt (fun _ => rfl) (fun _ _ _ => trivial) (by simp)) fun sid => ?_
  refine Triple.bind (Triple.askAt (fun _ => rfl) (fun v hv x => ⟨sid, hv.sig⟩) (by simp)) fun random => ?_
  refine Triple.bind (Triple.clearAt W _ _ rfl rfl fun _ _ => Plain.disclosed ⟨by simp [clientHello], by simp [clientHello]⟩ _) fun _ => ?_
  refine Triple.pure fun v hv => hv.live ⟨rfl, { random := random, sessionId := sid
                                                 ch := ⟨.tls12, random, sid, cipherSuites ++ [0x00ff], [0], clientExtensions cfg⟩ },
    offer_clientHello cfg random sid, rfl, rfl, ?_, rfl⟩
  cases cfg.hasClientCerts <;>
    simp [clientHello, HandshakeHashBuffer.addMessage, HandshakeHashBuffer.new, HandshakeHashBuffer.setClientAuth, transcriptOf,
      Ev.transcript]

end Tlsn.Client
