import Verif.Client.ConnProps
import Verif.Client.Demo

/-! # An honest handshake completes -/

namespace Tlsn.Client

variable {cfg : ClientCfg}

/-- Everything outside works, with the values of `d`. -/
structure Cooperative (W : World) (d : Session) : Prop where
  sessionId : ∀ log, W.sessionId log = .ok d.sessionId
  random : ∀ log, W.random log = .ok d.random
  keyShare : ∀ log, W.keyShare log = .ok d.share
  now : ∀ log, W.now log = d.now
  sign : ∀ log scheme message, W.sign log scheme message = .ok d.sig
  prepare : ∀ log hs, W.prepare log hs = .ok ()
  clientVd : ∀ log hash, W.clientVd log hash = .ok d.vd
  serverVd : ∀ log hash, W.serverVd log hash = .ok d.serverVd
  startTraffic : ∀ log, W.startTraffic log = .ok ()
  pushOut : ∀ log m, W.pushOut log m = .ok ()

/-- The server's messages. -/
def Session.flight (d : Session) : List MessagePayload :=
  [.handshake ⟨d.shTyp, .serverHello d.sh⟩, .handshake ⟨d.certTyp, .certificate d.chain⟩] ++
  d.status.toList.map (fun s => .handshake ⟨s.1, .certificateStatus s.2⟩) ++
  [.handshake ⟨d.kxTyp, .serverKeyExchange d.kxBytes⟩] ++
  d.request.toList.map (fun r => .handshake ⟨r.1, .certificateRequest r.2⟩) ++
  [.handshake ⟨d.doneTyp, .serverHelloDone⟩, .changeCipherSpec, .handshake ⟨d.finTyp, .finished d.serverVd⟩]

/-- Messages are processed one after the other. -/
def processAll (cfg : ClientCfg) (W : World) : List MessagePayload → HState → M Common HState
  | [], s => pure s
  | m :: ms, s => do
    let s ← processMain cfg W m s
    processAll cfg W ms s

/-- Nothing stands in the way of a handshake. -/
def Ready (c : Common) : Prop := c.aligned = true ∧ c.mayReceive = false

/-- From a ready state the function returns, with a result that has the property, and leaves a ready state. -/
def Yields {α : Type} (f : M Common α) (Q : α → Prop) : Prop := ∀ c, Ready c → ∃ c' a, f c = (c', .ok a) ∧ Ready c' ∧ Q a

theorem Yields.pure {α : Type} {Q : α → Prop} {a : α} (h : Q a) : Yields (Pure.pure a : M Common α) Q :=
  fun c hc => ⟨c, a, rfl, hc, h⟩

theorem Yields.bind {α β : Type} {f : M Common α} {g : α → M Common β} {Q : α → Prop} {R : β → Prop} (hf : Yields f Q)
    (hg : ∀ a, Q a → Yields (g a) R) : Yields (f >>= g) R := by
  intro c hc
  obtain ⟨c', a, h1, h2, h3⟩ := hf c hc
  obtain ⟨c'', b, h4, h5, h6⟩ := hg a h3 c' h2
  refine ⟨c'', b, ?_, h5, h6⟩
  show M.bind f g c = _
  unfold M.bind
  rw [h1]
  exact h4

theorem Yields.modify {f : Common → Common} (h : ∀ c, Ready c → Ready (f c)) : Yields (M.modify f) fun _ => True :=
  fun c hc => ⟨f c, (), rfl, h c hc, trivial⟩

theorem Yields.note (e : Ev) : Yields (Tlsn.Client.note e) fun _ => True := Yields.modify fun _ h => h

theorem Yields.ask {α : Type} {r : List Ev → Reply α} {ev : Reply α → Ev} {toErr : Nat → CErr} {a : α} (h : ∀ log, r log = .ok a) :
    Yields (Tlsn.Client.ask r ev toErr) fun x => x = a := by
  intro c hc
  refine ⟨{ c with log := c.log ++ [ev (r c.log)] }, a, ?_, hc, rfl⟩
  unfold Tlsn.Client.ask
  simp only [h]

theorem Yields.get {β : Type} {g : Common → M Common β} {R : β → Prop}
    (hg : ∀ c0, Ready c0 → Yields (g c0) R) : Yields (M.get >>= g) R := by
  intro c hc
  exact hg c hc c hc

theorem yields_pushAll {W : World} (h : ∀ log m, W.pushOut log m = .ok ()) (ms : List OpaqueMessage) :
    Yields (pushAll W ms) fun _ => True := by
  induction ms with
  | nil => exact Yields.pure trivial
  | cons m ms ih => exact Yields.bind (Yields.ask fun log => h log m) fun _ _ => ih

theorem yields_queueAll (ms : List OpaqueMessage) : Yields (queueAll ms) fun _ => True := by
  induction ms with
  | nil => exact Yields.pure trivial
  | cons m ms ih => exact Yields.bind (Yields.modify fun _ h => h) fun _ _ => ih

theorem yields_sendMsg {W : World} (h : ∀ log m, W.pushOut log m = .ok ()) (v : ProtocolVersion) (m : MessagePayload) (b : Bool) :
    Yields (sendMsg W v m b) fun _ => True := by
  unfold sendMsg
  refine Yields.get fun c _ => ?_
  cases b
  · exact Yields.bind (Yields.note _) fun _ _ => yields_queueAll _
  · exact Yields.bind (Yields.note _) fun _ _ => yields_pushAll h _

theorem yields_emit {W : World} (h : ∀ log m, W.pushOut log m = .ok ()) (t : HandshakeHash) (m : MessagePayload) :
    Yields (emit W t m) fun t' => t' = t.addMessage m :=
  Yields.bind (yields_sendMsg h _ _ _) fun _ _ => Yields.pure rfl

theorem yields_checkAligned (W : World) : Yields (checkAligned W) fun _ => True := by
  unfold checkAligned
  refine Yields.get fun c hc => ?_
  rw [if_pos hc.1]
  exact Yields.pure trivial

theorem Yields.rejecting {f : M Common HState} {Q : HState → Prop} (W : World) (h : Yields f Q) :
    Yields (Tlsn.Client.rejecting W f) Q := by
  intro c hc
  obtain ⟨c', a, h1, h2, h3⟩ := h c hc
  refine ⟨c', a, ?_, h2, h3⟩
  unfold Tlsn.Client.rejecting
  rw [h1]

theorem yields_processMain {W : World} {m : MessagePayload} {s : HState} {Q : HState → Prop} (h : Yields (handle cfg W s m) Q) :
    Yields (processMain cfg W m s) Q := by
  unfold processMain
  refine Yields.get fun c hc => ?_
  rw [hc.2]
  exact Yields.bind (Yields.note _) fun _ _ => Yields.rejecting W h

theorem yields_processAll_nil {W : World} {s : HState} {Q : HState → Prop} (h : Q s) : Yields (processAll cfg W [] s) Q :=
  Yields.pure h

theorem yields_processAll_cons {W : World} {m : MessagePayload} {ms : List MessagePayload} {s : HState} {P Q : HState → Prop}
    (h : Yields (handle cfg W s m) P) (hs : ∀ s, P s → Yields (processAll cfg W ms s) Q) : Yields (processAll cfg W (m :: ms) s) Q :=
  Yields.bind (yields_processMain h) hs

/-- The fields that the states share, and whether the transcript is kept for a signature. -/
structure XOk (cfg : ClientCfg) (d : Session) (x : Ctx) : Prop where
  client : x.clientRandom = d.random
  server : x.serverRandom = d.sh.random
  suite : x.suite = d.sh.cipherSuite
  keeps : x.transcript.clientAuth.isSome = cfg.hasClientCerts

theorem keeps_add (t : HandshakeHash) (m : MessagePayload) : (t.addMessage m).clientAuth.isSome = t.clientAuth.isSome := by
  unfold HandshakeHash.addMessage
  split
  · simp [HandshakeHash.updateRaw]
  · rfl

theorem XOk.add {d : Session} {x : Ctx} (h : XOk cfg d x) (m : MessagePayload) :
    XOk cfg d { x with transcript := x.transcript.addMessage m } :=
  ⟨h.client, h.server, h.suite, (keeps_add _ _).trans h.keeps⟩

/-- After the server hello. -/
def AfterHello (cfg : ClientCfg) (d : Session) (s : HState) : Prop :=
  ∃ x, XOk cfg d x ∧ s = .certificate x (findExt d.sh 0x0005).isSome d.scts

theorem Choice_find {d : Session} (h : d.Choice cfg) {e : ServerExtension} (he : e ∈ d.sh.extensions) :
    findExt d.sh e.getType = some e := find_unique h.distinct he

theorem Choice_scts {d : Session} (h : d.Choice cfg) : sctsOf d.sh = d.scts := by
  apply Option.ext
  intro l
  rw [h.scts l]
  unfold sctsOf
  constructor
  · intro h1
    split at h1
    · rename_i l' hl'
      cases h1
      exact (findExt_mem hl').1
    · cases h1
  · intro h1
    rw [show findExt d.sh 0x0012 = _ from Choice_find h h1]

theorem yields_serverHello {W : World} {d : Session} (hc : d.Choice cfg) {hx : HelloCtx} (hr : hx.random = d.random)
    (hs : hx.sentExts = d.ch.extensions.map ClientExtension.getType) (hb : hx.buffer.clientAuthEnabled = cfg.hasClientCerts) :
    Yields (handleServerHello cfg W hx (.handshake ⟨d.shTyp, .serverHello d.sh⟩)) (AfterHello cfg d) := by
  have hsv : supportedVersion d.sh = none := by
    unfold supportedVersion
    split
    · rename_i v hv
      exact absurd (findExt_mem hv).1 (hc.noVersionExtension v)
    · rfl
  have hver : versionError d.sh = none := by
    unfold versionError
    simp [hsv, hc.version]
  have hdup : duplicateFrom [] d.sh.extensions = false := (duplicateFrom_iff _ _).2 ⟨hc.distinct, by simp⟩
  have huns : unsolicited hx.sentExts d.sh = false := by
    unfold unsolicited
    rw [List.any_eq_false]
    intro e he
    rcases hc.offered e he with h | h
    · simp [h]
    · rw [hs]
      simp only [Bool.and_eq_true, Bool.not_eq_true', not_and]
      intro h'
      exact absurd h (by simpa using h')
  have hpts : ((ecPointsOf d.sh).any fun l => !l.contains 0) = false := by
    unfold ecPointsOf
    split
    · rename_i l hl
      have := hc.points l (findExt_mem hl).1
      simpa using this
    · rfl
  have hsuite : cipherSuites.contains d.sh.cipherSuite = true := by
    rcases hc.suite with h | h <;> rw [h] <;> decide
  unfold handleServerHello
  simp only [hver, hc.compression, ne_eq, not_true_eq_false, if_false, hdup, huns, hpts, hsuite, Bool.false_eq_true, Bool.not_true]
  refine Yields.bind (Yields.modify fun _ h => h) fun _ _ => Yields.bind (Q := fun _ => True) ?_ fun _ _ =>
    Yields.bind (Yields.modify fun _ h => h) fun _ _ => ?_
  · unfold processAlpn
    refine Yields.bind (Yields.modify fun _ h => h) fun _ _ => ?_
    cases ha : alpnOf d.sh with
    | none => exact Yields.pure trivial
    | some p =>
      have : p ∈ cfg.alpn := by
        unfold alpnOf at ha
        split at ha
        · rename_i q hq
          cases ha
          exact hc.alpn _ (findExt_mem hq).1
        · cases ha
      simp only
      rw [if_pos (by simpa using this)]
      exact Yields.pure trivial
  · have hx' : XOk cfg d ⟨hx.random, d.sh.random, (hx.buffer.startHash cfg.hash).addMessage (.handshake ⟨d.shTyp, .serverHello d.sh⟩),
        d.sh.cipherSuite⟩ := by
      refine ⟨hr, rfl, rfl, (keeps_add _ _).trans ?_⟩
      unfold HandshakeHashBuffer.startHash
      rw [hb]
      cases cfg.hasClientCerts <;> rfl
    unfold completeServerHello
    simp only [Choice_scts hc]
    cases hsc : d.scts with
    | none => exact Yields.pure ⟨_, hx', by rw [hsc]⟩
    | some l =>
      have hv := hc.sctsValid l hsc
      have : sctListInvalid l = false := by
        unfold sctListInvalid
        simp only [Bool.or_eq_false_iff, List.isEmpty_eq_false_iff, List.any_eq_false, List.isEmpty_iff]
        exact ⟨hv.1, fun x hx hx' => hv.2 (hx' ▸ hx)⟩
      simp only [this, Bool.false_eq_true, if_false]
      exact Yields.pure ⟨_, hx', by rw [hsc]⟩

/-- The certificate and the status. -/
def certDetails (d : Session) : CertDetails := ⟨d.chain, d.ocsp, d.scts⟩

def kxDetails (d : Session) : KxDetails := ⟨d.params, d.kx.dss⟩

/-- After the key exchange. -/
def AfterKx (cfg : ClientCfg) (d : Session) (s : HState) : Prop :=
  ∃ x, XOk cfg d x ∧ s = .doneOrReq x (certDetails d) (kxDetails d)

theorem yields_serverKx {W : World} {d : Session} (hk : d.Kx) {x : Ctx} (hx : XOk cfg d x) :
    Yields (handleServerKx W x (certDetails d) (.handshake ⟨d.kxTyp, .serverKeyExchange d.kxBytes⟩)) (AfterKx cfg d) := by
  have hk' : unwrapEcdhe d.kxBytes = some d.kx := hk
  unfold handleServerKx
  simp only [hk']
  exact Yields.pure ⟨_, hx.add _, by rw [params_eq]; rfl⟩

/-- The client's reply to a request for its certificate. -/
def authFor (cfg : ClientCfg) (d : Session) : Option ClientAuth :=
  d.request.map fun r => match cfg.resolve r.2.caNames r.2.sigSchemes with
    | some (chain, scheme) => ClientAuth.verify chain scheme
    | none => .empty

theorem suite_usable' {suite scheme : UInt16} (h : suite = 0xc02b ∨ suite = 0xc02f)
    (hu : scheme ∈ Session.rsaSchemes ↔ suite = 0xc02f) : suiteUsable suite (schemeAlg scheme) = true := by
  have h1 : scheme ∈ Session.rsaSchemes ↔ schemeAlg scheme = .rsa := by
    unfold schemeAlg
    split
    · rename_i h; simpa [Session.rsaSchemes] using h
    · rename_i h
      refine ⟨fun h' => absurd h' h, fun h' => ?_⟩
      split at h' <;> cases h'
  rw [h1] at hu
  generalize schemeAlg scheme = alg at hu
  rcases h with rfl | rfl <;> cases alg <;> revert hu <;> decide

theorem yields_serverDone {W : World} {d : Session} (hw : Cooperative W d) (hd : d.ServerOk cfg) {x : Ctx} {auth : Option ClientAuth}
    (hclient : x.clientRandom = d.random) (hserver : x.serverRandom = d.sh.random) (hsuite : x.suite = d.sh.cipherSuite)
    (hauth : ∀ chain scheme, auth = some (.verify chain scheme) → x.transcript.clientAuth.isSome = true) :
    Yields (handleServerDone cfg W x (certDetails d) (kxDetails d) auth (.handshake ⟨d.doneTyp, .serverHelloDone⟩))
      fun s => ∃ t, s = .ccs t := by
  obtain ⟨leaf, inter, hchain, hcert, hsig⟩ := hd.verified.certificate
  have hlen : d.kx.publicKey.length < 2 ^ 8 := by
    have : codecEcdheServerKeyExchange.read.whole d.kxBytes = some d.kx := hd.kx
    exact ((law_ecdhe.whole _ _).1 this).1.1
  have hdec : codecEcdhParams.read.whole (kxDetails d).params = some (d.kx.namedGroup, d.kx.publicKey) := by
    rw [← ecdhParams_whole d.kx.namedGroup _ hlen, params_eq]
    rfl
  unfold handleServerDone
  simp only [hdec]
  refine Yields.bind (yields_checkAligned W) fun _ _ => Yields.bind (Q := fun _ => True) ?_ fun _ _ => ?_
  · unfold verifyServer
    simp only [certDetails, hchain]
    refine Yields.bind (Q := fun t => t = d.now) ?_ fun t ht => ?_
    · unfold askNow
      exact Yields.get fun c _ => Yields.bind (Yields.note _) fun _ _ => Yields.pure (hw.now _)
    · subst ht
      simp only [hcert]
      have h1 := suite_usable' hd.choice.suite hd.verified.scheme
      rw [hsuite, show (kxDetails d).sig.scheme = d.kx.dss.scheme from rfl, h1]
      have h2 : cfg.verifySig (x.clientRandom ++ x.serverRandom ++ (kxDetails d).params) leaf (kxDetails d).sig = .ok () := by
        rw [hclient, hserver]
        exact hsig
      simp only [h2, Bool.not_true, Bool.false_eq_true, if_false]
      exact Yields.pure trivial
  · refine Yields.bind (Q := fun t => (∀ chain scheme, auth = some (.verify chain scheme) → t.clientAuth.isSome = true)) ?_
      fun t ht => ?_
    · unfold emitCertificate
      cases auth with
      | none => exact Yields.pure fun _ _ h => (by cases h)
      | some a =>
        cases a with
        | empty =>
          intro c hc
          obtain ⟨c', t, h1, h2, -⟩ := yields_emit hw.pushOut (x.transcript.addMessage (.handshake ⟨d.doneTyp, .serverHelloDone⟩)) (certificateMsg []) c hc
          exact ⟨c', t, h1, h2, fun _ _ h => (by cases h)⟩
        | verify chain scheme =>
          intro c hc
          obtain ⟨c', t, h1, h2, h3⟩ := yields_emit hw.pushOut (x.transcript.addMessage (.handshake ⟨d.doneTyp, .serverHelloDone⟩)) (certificateMsg chain) c hc
          exact ⟨c', t, h1, h2, fun _ _ _ => by rw [h3, keeps_add, keeps_add]; exact hauth _ _ rfl⟩
    · refine Yields.bind (Yields.ask hw.keyShare) fun share hshare => ?_
      subst hshare
      simp only [hd.group, ne_eq, not_true_eq_false, if_false]
      refine Yields.bind (yields_emit hw.pushOut _ _) fun t' ht' => Yields.bind (Q := fun _ => True) ?_ fun t'' _ =>
        Yields.bind (yields_sendMsg hw.pushOut _ _ _) fun _ _ => Yields.bind (Yields.ask fun log => hw.prepare log _) fun _ _ =>
        Yields.bind (Yields.modify fun _ h => h) fun _ _ => Yields.bind (Yields.ask fun log => hw.clientVd log _) fun _ _ =>
        Yields.bind (yields_sendMsg hw.pushOut _ _ _) fun _ _ => Yields.pure ⟨_, rfl⟩
      unfold emitCertVerify
      split
      · rename_i chain scheme
        have hkeep : t'.clientAuth.isSome = true := by
          rw [ht', keeps_add]
          exact ht _ _ rfl
        obtain ⟨b, hb⟩ := Option.isSome_iff_exists.1 hkeep
        simp only [HandshakeHash.takeHandshakeBuf, hb]
        exact Yields.bind (Yields.ask fun log => hw.sign log _ _) fun _ _ c hc => by
          obtain ⟨c', t, h1, h2, -⟩ := yields_emit hw.pushOut _ _ c hc
          exact ⟨c', t, h1, h2, trivial⟩
      · exact Yields.pure trivial

theorem flushLoop_ok {W : World} (hp : ∀ log m, W.pushOut log m = .ok ()) : ∀ (n : Nat) (c : Common), ∃ c', flushLoop W n c = (c', .ok ()) ∧
    c'.maySend = c.maySend ∧ c'.mayReceive = c.mayReceive := by
  have hpush : ∀ (ms : List OpaqueMessage) (c : Common), ∃ c', pushAll W ms c = (c', .ok ()) ∧
      c'.maySend = c.maySend ∧ c'.mayReceive = c.mayReceive := by
    intro ms
    induction ms with
    | nil => exact fun c => ⟨c, rfl, rfl, rfl⟩
    | cons m ms ih =>
      intro c
      obtain ⟨c', h1, h2, h3⟩ := ih { c with log := c.log ++ [.pushOut m (.ok ())] }
      refine ⟨c', ?_, h2, h3⟩
      have hstep : pushAll W (m :: ms) c = M.bind (ask (W.pushOut · m) (.pushOut m)) (fun _ => pushAll W ms) c := rfl
      rw [hstep]
      unfold M.bind Tlsn.Client.ask
      simp only [hp]
      exact h1
  intro n
  induction n with
  | zero => exact fun c => ⟨c, rfl, rfl, rfl⟩
  | succ n ih =>
    intro c
    have hstep : flushLoop W (n + 1) c = (match c.sendable.pop with
      | (_, none) => (pure () : M Common Unit)
      | (sendable, some buf) => do
        M.modify fun c => { c with sendable }
        sendAppData W buf
        flushLoop W n) c := rfl
    rw [hstep]
    rcases c.sendable.pop with ⟨sendable, _ | buf⟩
    · exact ⟨c, rfl, rfl, rfl⟩
    · obtain ⟨c1, h1, h2, h3⟩ := hpush (c.fragmenter.fragment ⟨.applicationData, .tls12, buf⟩) { c with sendable }
      obtain ⟨c2, h4, h5, h6⟩ := ih c1
      refine ⟨c2, ?_, h5.trans h2, h6.trans h3⟩
      have hstep2 : (do
        M.modify fun c => { c with sendable }
        sendAppData W buf
        flushLoop W n : M Common Unit) c =
        M.bind (pushAll W (c.fragmenter.fragment ⟨.applicationData, .tls12, buf⟩)) (fun _ => flushLoop W n) { c with sendable } := rfl
      simp only
      rw [hstep2]
      unfold M.bind
      rw [h1]
      exact h4

/-- crates/mpc-tls/src/client/tls12.rs:778-796: what `ExpectFinished` does with the leader's verify data. -/
def finishTail (W : World) (vd expected : Bytes) : M Common HState :=
  if expected = vd then M.bind (startTraffic W) fun _ => pure .traffic else abort W 0x33 .decryptError

theorem finishTail_self (W : World) (vd : Bytes) : finishTail W vd vd = M.bind (startTraffic W) fun _ => pure .traffic := if_pos rfl

theorem finish_ok {W : World} {d : Session} (hw : Cooperative W d) (t : HandshakeHash) (c : Common) (hc : Ready c) :
    ∃ c', processMain cfg W (.handshake ⟨d.finTyp, .finished d.serverVd⟩) (.finished t) c = (c', .ok .traffic) ∧
      c'.maySend = true ∧ c'.mayReceive = true := by
  let c1 : Common := { c with
    log := c.log ++ [.handle (.handshake ⟨d.finTyp, .finished d.serverVd⟩)] ++ [.serverVd t.currentHash (.ok d.serverVd)] ++
      [.startTraffic (.ok ())], mayReceive := true, maySend := true }
  obtain ⟨c2, h1, h2, h3⟩ := flushLoop_ok hw.pushOut (c1.sendable.chunks.length + 1) c1
  refine ⟨c2, ?_, h2, h3⟩
  have hal := hc.1
  have hrec := hc.2
  have hflush : flushPlaintext W c1 = (c2, .ok ()) := h1
  have hst : startTraffic W { c with
      log := c.log ++ [.handle (.handshake ⟨d.finTyp, .finished d.serverVd⟩)] ++ [.serverVd t.currentHash (.ok d.serverVd)] } =
      (c2, .ok ()) := by
    have hstep : startTraffic W { c with
      log := c.log ++ [.handle (.handshake ⟨d.finTyp, .finished d.serverVd⟩)] ++ [.serverVd t.currentHash (.ok d.serverVd)] } =
      M.bind (ask W.startTraffic .startTraffic) (fun _ => M.bind (M.modify fun c => { c with maySend := true }) fun _ => flushPlaintext W)
        { c with
          log := c.log ++ [.handle (.handshake ⟨d.finTyp, .finished d.serverVd⟩)] ++ [.serverVd t.currentHash (.ok d.serverVd)]
          mayReceive := true } := rfl
    rw [hstep]
    unfold M.bind Tlsn.Client.ask
    simp only [hw.startTraffic]
    exact hflush
  have hh : handleFinished W t (.handshake ⟨d.finTyp, .finished d.serverVd⟩)
      { c with log := c.log ++ [.handle (.handshake ⟨d.finTyp, .finished d.serverVd⟩)] } = (c2, .ok .traffic) := by
    have hstep : handleFinished W t (.handshake ⟨d.finTyp, .finished d.serverVd⟩)
      { c with log := c.log ++ [.handle (.handshake ⟨d.finTyp, .finished d.serverVd⟩)] } =
      M.bind (checkAligned W) (fun _ => M.bind (ask (W.serverVd · t.currentHash) (.serverVd t.currentHash)) fun expected => finishTail W d.serverVd expected)
      { c with log := c.log ++ [.handle (.handshake ⟨d.finTyp, .finished d.serverVd⟩)] } := rfl
    have hca : checkAligned W { c with log := c.log ++ [.handle (.handshake ⟨d.finTyp, .finished d.serverVd⟩)] } =
        ({ c with log := c.log ++ [.handle (.handshake ⟨d.finTyp, .finished d.serverVd⟩)] }, .ok ()) := by
      have : checkAligned W { c with log := c.log ++ [.handle (.handshake ⟨d.finTyp, .finished d.serverVd⟩)] } =
        (if c.aligned then (pure () : M Common Unit) else abort W 0x0a (.misbehaved "key epoch or handshake flight with pending fragment"))
          { c with log := c.log ++ [.handle (.handshake ⟨d.finTyp, .finished d.serverVd⟩)] } := rfl
      rw [this, if_pos hal]
      rfl
    rw [hstep]
    unfold M.bind
    rw [hca]
    simp only [Tlsn.Client.ask, hw.serverVd]
    rw [finishTail_self]
    unfold M.bind
    rw [hst]
    rfl
  have hstep : processMain cfg W (.handshake ⟨d.finTyp, .finished d.serverVd⟩) (.finished t) c =
      (if c.mayReceive && isHelloRequest (.handshake ⟨d.finTyp, .finished d.serverVd⟩) then (do
          sendWarning W 0x64
          pure (.finished t))
        else (do
          note (.handle (.handshake ⟨d.finTyp, .finished d.serverVd⟩))
          rejecting W (handle cfg W (.finished t) (.handshake ⟨d.finTyp, .finished d.serverVd⟩)) : M Common HState)) c := rfl
  rw [hstep, hrec]
  simp only [Bool.false_and, Bool.false_eq_true, if_false]
  show rejecting W (handleFinished W t (.handshake ⟨d.finTyp, .finished d.serverVd⟩))
    { c with log := c.log ++ [.handle (.handshake ⟨d.finTyp, .finished d.serverVd⟩)] } = _
  unfold rejecting
  rw [hh]

/-- The messages before the last. -/
def Session.flight1 (d : Session) : List MessagePayload :=
  [.handshake ⟨d.shTyp, .serverHello d.sh⟩, .handshake ⟨d.certTyp, .certificate d.chain⟩] ++
  d.status.toList.map (fun s => .handshake ⟨s.1, .certificateStatus s.2⟩) ++
  [.handshake ⟨d.kxTyp, .serverKeyExchange d.kxBytes⟩] ++
  d.request.toList.map (fun r => .handshake ⟨r.1, .certificateRequest r.2⟩) ++
  [.handshake ⟨d.doneTyp, .serverHelloDone⟩]

theorem yields_done {W : World} {d : Session} (hw : Cooperative W d) (hd : d.ServerOk cfg)
    (hid : (d.identity cfg).isSome = true → cfg.hasClientCerts = true) {s : HState} (hs : AfterKx cfg d s) :
    Yields (processAll cfg W (d.request.toList.map (fun r => .handshake ⟨r.1, .certificateRequest r.2⟩) ++
      [.handshake ⟨d.doneTyp, .serverHelloDone⟩]) s) fun s => ∃ t, s = .ccs t := by
  obtain ⟨x, hx, rfl⟩ := hs
  cases hreq : d.request with
  | none =>
    refine yields_processAll_cons (P := fun s => ∃ t, s = .ccs t) ?_ fun s h => yields_processAll_nil h
    exact yields_serverDone hw hd hx.client hx.server hx.suite fun _ _ h => (by cases h)
  | some r =>
    let x' : Ctx := { x with transcript := x.transcript.addMessage (.handshake ⟨r.1, .certificateRequest r.2⟩) }
    have hx' : XOk cfg d x' := hx.add _
    refine yields_processAll_cons (P := fun s => s = .done x' (certDetails d) (kxDetails d) (authFor cfg d)) ?_ fun s hs => ?_
    · refine Yields.pure ?_
      unfold authFor
      rw [hreq]
      rfl
    · subst hs
      refine yields_processAll_cons (P := fun s => ∃ t, s = .ccs t) ?_ fun s h => yields_processAll_nil h
      refine yields_serverDone hw hd hx'.client hx'.server hx'.suite fun chain scheme h => ?_
      rw [hx'.keeps]
      refine hid ?_
      unfold authFor at h
      unfold Session.identity
      rw [hreq] at h ⊢
      simp only [Option.map_some, Option.some.injEq] at h
      simp only [Option.bind_some]
      cases hres : cfg.resolve r.2.caNames r.2.sigSchemes with
      | none => rw [hres] at h; cases h
      | some a => rfl

theorem yields_flight {W : World} {d : Session} (hw : Cooperative W d) (hd : d.ServerOk cfg)
    (hid : (d.identity cfg).isSome = true → cfg.hasClientCerts = true) {hx : HelloCtx} (hr : hx.random = d.random)
    (hs : hx.sentExts = d.ch.extensions.map ClientExtension.getType) (hb : hx.buffer.clientAuthEnabled = cfg.hasClientCerts) :
    Yields (processAll cfg W d.flight1 (.serverHello hx)) fun s => ∃ t, s = .ccs t := by
  unfold Session.flight1
  simp only [List.append_assoc]
  refine yields_processAll_cons (yields_serverHello hd.choice hr hs hb) fun s hs => ?_
  obtain ⟨x, hx, rfl⟩ := hs
  cases hst : d.status with
  | none =>
    have hoc : certDetails d = ⟨d.chain, [], d.scts⟩ := by simp [certDetails, Session.ocsp, hst]
    let x' : Ctx := { x with transcript := x.transcript.addMessage (.handshake ⟨d.certTyp, .certificate d.chain⟩) }
    have hx' : XOk cfg d x' := hx.add _
    refine yields_processAll_cons (P := fun s => s = (if (findExt d.sh 0x0005).isSome then .statusOrKx x' d.scts d.chain
      else .serverKx x' ⟨d.chain, [], d.scts⟩)) ?_ fun s hs => ?_
    · generalize (findExt d.sh 0x0005).isSome = b
      cases b
      · exact Yields.pure rfl
      · exact Yields.pure rfl
    · subst hs
      refine yields_processAll_cons (P := AfterKx cfg d) ?_ fun s hs => yields_done hw hd hid hs
      generalize (findExt d.sh 0x0005).isSome = b
      cases b
      · have := yields_serverKx (W := W) hd.kx hx'
        rw [hoc] at this
        exact this
      · have := yields_serverKx (W := W) hd.kx hx'
        rw [hoc] at this
        exact this
  | some st =>
    have hms : (findExt d.sh 0x0005).isSome = true := by
      obtain ⟨e, he, ht⟩ := hd.status (by rw [hst]; rfl)
      have := Choice_find hd.choice he
      rw [ht] at this
      rw [this]
      rfl
    have hoc : certDetails d = ⟨d.chain, st.2, d.scts⟩ := by simp [certDetails, Session.ocsp, hst]
    let x' : Ctx := { x with transcript := x.transcript.addMessage (.handshake ⟨d.certTyp, .certificate d.chain⟩) }
    have hx' : XOk cfg d x' := hx.add _
    let x'' : Ctx := { x' with transcript := x'.transcript.addMessage (.handshake ⟨st.1, .certificateStatus st.2⟩) }
    have hx'' : XOk cfg d x'' := hx'.add _
    rw [hms]
    refine yields_processAll_cons (P := fun s => s = .statusOrKx x' d.scts d.chain) (Yields.pure rfl) fun s hs => ?_
    subst hs
    refine yields_processAll_cons (P := fun s => s = .serverKx x'' (certDetails d)) (Yields.pure (by rw [hoc])) fun s hs => ?_
    subst hs
    exact yields_processAll_cons (P := AfterKx cfg d) (yields_serverKx hd.kx hx'') fun s hs => yields_done hw hd hid hs

theorem yields_ccs (W : World) (t : HandshakeHash) :
    Yields (processMain cfg W .changeCipherSpec (.ccs t)) fun s => s = .finished t :=
  yields_processMain (Yields.bind (yields_checkAligned W) fun _ _ => Yields.bind (Yields.modify fun _ h => h) fun _ _ => Yields.pure rfl)

theorem processAll_append (W : World) (ms ms' : List MessagePayload) : ∀ (s : HState) (c : Common),
    processAll cfg W (ms ++ ms') s c = M.bind (processAll cfg W ms s) (processAll cfg W ms') c := by
  induction ms with
  | nil => exact fun _ _ => rfl
  | cons m ms ih =>
    intro s c
    have hstep : processAll cfg W (m :: ms ++ ms') s c = M.bind (processMain cfg W m s) (processAll cfg W (ms ++ ms')) c := rfl
    have hstep' : M.bind (processAll cfg W (m :: ms) s) (processAll cfg W ms') c =
      M.bind (M.bind (processMain cfg W m s) (processAll cfg W ms)) (processAll cfg W ms') c := rfl
    rw [hstep, hstep']
    unfold M.bind
    rcases processMain cfg W m s c with ⟨c1, r⟩
    cases r with
    | ok a => exact ih a c1
    | err e => rfl
    | dropped => rfl
    | panicked => rfl

/-- The handshake after the client hello. -/
theorem completes {W : World} {d : Session} (hw : Cooperative W d) (hd : d.ServerOk cfg)
    (hid : (d.identity cfg).isSome = true → cfg.hasClientCerts = true) {hx : HelloCtx} (hr : hx.random = d.random)
    (hs : hx.sentExts = d.ch.extensions.map ClientExtension.getType) (hb : hx.buffer.clientAuthEnabled = cfg.hasClientCerts)
    (c : Common) (hc : Ready c) : ∃ c', processAll cfg W d.flight (.serverHello hx) c = (c', .ok .traffic) ∧
      c'.maySend = true ∧ c'.mayReceive = true := by
  have hfl : d.flight = d.flight1 ++ [.changeCipherSpec, .handshake ⟨d.finTyp, .finished d.serverVd⟩] := by
    simp [Session.flight, Session.flight1]
  obtain ⟨c1, s1, h1, h2, t, rfl⟩ := yields_flight hw hd hid hr hs hb c hc
  obtain ⟨c2, s2, h3, h4, rfl⟩ := yields_ccs (cfg := cfg) W t c1 h2
  obtain ⟨c3, h5, h6, h7⟩ := finish_ok (cfg := cfg) hw t c2 h4
  refine ⟨c3, ?_, h6, h7⟩
  rw [hfl, processAll_append]
  unfold M.bind
  rw [h1]
  have hstep : processAll cfg W [.changeCipherSpec, .handshake ⟨d.finTyp, .finished d.serverVd⟩] (.ccs t) c1 =
    M.bind (processMain cfg W .changeCipherSpec (.ccs t)) (fun s => M.bind (processMain cfg W
      (.handshake ⟨d.finTyp, .finished d.serverVd⟩) s) fun s => pure s) c1 := rfl
  simp only
  rw [hstep]
  unfold M.bind
  rw [h3]
  simp only [h5]
  rfl

theorem start_ok {W : World} {d : Session} (hw : Cooperative W d) (c : Common) (hc : Ready c) : ∃ c',
    startHandshake cfg W c = (c', .ok (.serverHello ⟨d.random, (if cfg.hasClientCerts then HandshakeHashBuffer.new.setClientAuth
      else HandshakeHashBuffer.new).addMessage (clientHello cfg d.random d.sessionId), (clientExtensions cfg).map (·.getType)⟩)) ∧
    Ready c' ∧ c'.log = c.log ++ [.sessionId (.ok d.sessionId), .random (.ok d.random), .clear (clientHello cfg d.random d.sessionId)] := by
  have hq : ∀ (ms : List OpaqueMessage) (c : Common), ∃ b, queueAll ms c = ({ c with sendableTls := b }, .ok ()) := by
    intro ms
    induction ms with
    | nil => exact fun c => ⟨c.sendableTls, rfl⟩
    | cons m ms ih => exact fun c => ih { c with sendableTls := (c.sendableTls.append m.encode).1 }
  let c1 : Common := { c with log := c.log ++ [.sessionId (.ok d.sessionId)] ++ [.random (.ok d.random)] }
  let c2 : Common := { c1 with log := c1.log ++ [.clear (clientHello cfg d.random d.sessionId)] }
  obtain ⟨b, hb⟩ := hq (c.fragmenter.fragment (plainOf .tls10 (clientHello cfg d.random d.sessionId))) c2
  refine ⟨{ c2 with sendableTls := b }, ?_, hc, by simp [c2, c1]⟩
  have hstep : startHandshake cfg W c = M.bind (ask W.sessionId .sessionId .core) (fun sessionId => M.bind (ask W.random .random) fun random =>
    M.bind (sendMsg W .tls10 (clientHello cfg random sessionId) false) fun _ =>
      pure (.serverHello ⟨random, (if cfg.hasClientCerts then HandshakeHashBuffer.new.setClientAuth
        else HandshakeHashBuffer.new).addMessage (clientHello cfg random sessionId), (clientExtensions cfg).map (·.getType)⟩)) c := rfl
  have hsend : sendMsg W .tls10 (clientHello cfg d.random d.sessionId) false c1 = ({ c2 with sendableTls := b }, .ok ()) := hb
  rw [hstep]
  unfold M.bind
  simp only [Tlsn.Client.ask, hw.sessionId, hw.random]
  rw [show ({ c with log := c.log ++ [.sessionId (.ok d.sessionId)] ++ [.random (.ok d.random)] } : Common) = c1 from rfl, hsend]
  rfl

/-- C83.  If the server chooses from what the client has offered, its certificate and signature are accepted, it uses the leader's
group and sends the verify data that the leader computes, and everything outside works, then the handshake completes: the client
handles all of the server's messages without an error and is then ready for application data.  If the client has a certificate for
the server's request, it must have said so in the configuration. -/
theorem C83_completes (W : World) (c0 : Conn) (h : Conn.new cfg = .ok c0) (d : Session) (hw : Cooperative W d) (hd : d.ServerOk cfg)
    (hsent : Ev.clear (.handshake ⟨0x01, .clientHello d.ch⟩) ∈ (c0.step cfg W .start).1.io.common.log)
    (hid : (d.identity cfg).isSome = true → cfg.hasClientCerts = true) :
    ∃ s, (c0.step cfg W .start).1.state = .ok s ∧
    ∃ c', processAll cfg W d.flight s (c0.step cfg W .start).1.io.common = (c', .ok .traffic) ∧
      c'.maySend = true ∧ c'.mayReceive = true := by
  obtain ⟨hst, hsig⟩ : c0.state = .ok .initial ∧ Ready c0.io.common ∧ c0.io.common.log = [] := by
    unfold Conn.new Common.new at h
    split at h
    · cases h
    · rename_i common hcm
      split at hcm
      · cases hcm
      · cases hcm
        cases h
        exact ⟨rfl, ⟨rfl, rfl⟩, rfl⟩
  obtain ⟨hready, hlog⟩ := hsig
  obtain ⟨c1, h1, h2, h3⟩ := start_ok (cfg := cfg) hw c0.io.common hready
  have hstep : c0.step cfg W .start = (⟨.ok (.serverHello ⟨d.random, (if cfg.hasClientCerts then HandshakeHashBuffer.new.setClientAuth
      else HandshakeHashBuffer.new).addMessage (clientHello cfg d.random d.sessionId), (clientExtensions cfg).map (·.getType)⟩),
      { c0.io with common := c1 }⟩, .ok) := by
    show callStart cfg W c0 = _
    unfold callStart
    rw [hst]
    simp only
    rw [h1]
  rw [hstep] at hsent ⊢
  simp only at hsent ⊢
  rw [h3, hlog] at hsent
  have hch : d.ch = ⟨.tls12, d.random, d.sessionId, cipherSuites ++ [0x00ff], [0], clientExtensions cfg⟩ := by
    simpa [clientHello] using hsent
  refine ⟨_, rfl, completes hw hd hid rfl (by rw [hch]) ?_ c1 h2⟩
  cases cfg.hasClientCerts <;> rfl

/-- The session of the demonstration. -/
def demoSession : Session :=
  { sessionId := List.replicate 32 9, random := List.replicate 32 5
    ch := ⟨.tls12, List.replicate 32 5, List.replicate 32 9, cipherSuites ++ [0x00ff], [0], clientExtensions demoCfg⟩
    shTyp := 0x02, sh := ⟨.tls12, List.replicate 32 8, [], 0xc02b, 0, [.protocols [[0x68, 0x32]], .ecPointFormats [0]]⟩
    certTyp := 0x0b, chain := [[1], [2]], kxTyp := 0x0c, kxBytes := codecEcdheServerKeyExchange.encode demoKx, kx := demoKx
    doneTyp := 0x0e, now := 100, share := ⟨0x0017, [4, 1, 2]⟩, vd := List.replicate 12 6, finTyp := 0x14
    serverVd := List.replicate 12 7 }

example : ∃ s, (demoConn.step demoCfg demoWorld .start).1.state = .ok s ∧
    ∃ c', processAll demoCfg demoWorld demoSession.flight s (demoConn.step demoCfg demoWorld .start).1.io.common = (c', .ok .traffic) ∧
      c'.maySend = true ∧ c'.mayReceive = true := by
  refine C83_completes demoWorld demoConn demoConn_new demoSession ?_ ?_ (by decide +kernel) (by decide)
  · exact ⟨fun _ => rfl, fun _ => rfl, fun _ => rfl, fun _ => rfl, fun _ _ _ => rfl, fun _ _ => rfl, fun _ _ => rfl, fun _ _ => rfl,
      fun _ => rfl, fun _ _ => rfl⟩
  · refine ⟨?_, ?_, fun h => (by cases h), (by decide +kernel : unwrapEcdhe _ = some _), ?_, rfl⟩
    · refine ⟨rfl, rfl, rfl, rfl, rfl, ?_, ?_, ?_, ?_, ?_, ?_, ?_⟩ <;>
        simp [demoSession, clientExtensions, sniExtensions, demoCfg]
    · refine ⟨rfl, ?_, rfl, .inl rfl, by decide, by decide, ?_, ?_, ?_, ?_⟩ <;> simp [demoSession, demoCfg]
    · exact ⟨⟨[1], [[2]], rfl, rfl, by rfl⟩, by decide⟩

end Tlsn.Client
