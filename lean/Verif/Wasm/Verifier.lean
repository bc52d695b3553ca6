import Verif.Wasm.CallProps
import Verif.Sdk.Verify
import Verif.Sdk.Openings
import Verif.Pki.Props

/-! # The JavaScript verifier, and both sides together

crates/wasm/src/verifier/mod.rs:25-142 over the SDK's verifier, and a JavaScript prover that shows data to it. -/

namespace Tlsn.Wasm

open Tlsn.Sdk (Text Ext SdkVerifierConfig SdkProverConfig VState VCall VReply SessionOutput SdkVerifierOutput WireMsg verifySteps sessionInfo Shows)

/-! ## Model -/

/-- crates/wasm/src/types.rs:102-111 `PartialTranscript` -/
structure JsPartial where
  sent : Bytes
  sentAuthed : List Rng
  recv : Bytes
  recvAuthed : List Rng
  deriving DecidableEq

/-- crates/wasm/src/types.rs:192-202 `VerifierOutput`, with the `ConnectionInfo` and the `TranscriptLength` in it. -/
structure JsVerifierOutput where
  serverName : Option Text
  time : Nat
  version : TlsVersion
  sentLength : Nat
  recvLength : Nat
  transcript : Option JsPartial
  deriving DecidableEq

/-- crates/wasm/src/verifier/mod.rs:121-142 `convert_verifier_output` -/
def convertVerifierOutput (o : SdkVerifierOutput) : JsVerifierOutput where
  serverName := o.serverName
  time := o.connection.time
  version := match o.connection.version with
    | .v12 => .v12
    | .v13 => .v13
  sentLength := o.connection.sentLength
  recvLength := o.connection.recvLength
  transcript := o.transcript.map fun t => ⟨t.sent, t.sentAuthed, t.recv, t.recvAuthed⟩

/-- What a call gives to JavaScript: nothing, the name for which a channel is needed (`setup`), the output, an exception; or the promise is
never settled. -/
inductive JsVReply where
  | undefined
  | name (n : Text)
  | output (o : JsVerifierOutput)
  | exception (k : Sdk.SdkErrorKind)
  | dropped

/-- crates/wasm/src/verifier/mod.rs:37-96: each call is the SDK's, errors become exceptions, the output is converted. -/
def jsVerifierCall (l : SdkVerifierConfig) (s : VState) (call : VCall) : VState × JsVReply :=
  let out := Sdk.verifierCall l s call
  (out.1, match out.2 with
    | .ok => .undefined
    | .proxyFor n => .name n
    | .output o => .output (convertVerifierOutput o)
    | .err k => .exception k
    | .dropped => .dropped)

/-- crates/wasm/src/verifier/mod.rs:30-35 `new`, then the calls; `none`: the constructor throws. -/
def runJsVerifier (R : Reads) (c : JsVerifierConfig) (calls : List VCall) : Option (List (VCall × JsVReply)) :=
  match convertVerifierConfig R c with
  | .error _ => none
  | .ok (l, _) => some (Sdk.runCalls (jsVerifierCall l) .initialized calls).2

/-- crates/sdk-core/src/prover.rs:427-434, the protocol in `reveal`: the message, the answer of the verifier (`none`: the channel
fails), the proof (crates/tlsn/src/prover.rs:527-592). -/
def proveSteps (env : Protocol.Env) (data : Transcript) (vp : ZkVm) (name : ServerName) (hsd : HandshakeData)
    (blinders : Nat → Blinder) (answer : Option Protocol.Response) (cfg : ProveConfig) : Ext ProverOutput :=
  match (Protocol.proverMsg cfg name hsd data).bind WireMsg.ofMsg with
  | none => .dropped
  | some _ =>
    match (Protocol.proverRest env data vp cfg blinders answer).2 with
    | .proved o => .done o
    | .rejected _ => .failed
    | .failed => .failed
    | .panicked => .dropped

/-- The message that a prover sends in `reveal`, if it gets that far. -/
def revealMsg (data : Transcript) (name : ServerName) (hsd : HandshakeData) (order : List CommitEntry → List CommitEntry)
    (r : JsReveal) (commit : Option JsCommit) : Option WireMsg :=
  match Sdk.revealConfig data order (convertReveal r) (commit.map convertCommit) with
  | .error _ => none
  | .ok cfg => (Protocol.proverMsg cfg name hsd data).bind WireMsg.ofMsg

/-! ## The verifier -/

theorem runJs_verifier (l : SdkVerifierConfig) (calls : List VCall) :
    (Sdk.runCalls (jsVerifierCall l) .initialized calls).1 = (Sdk.runVerifier l calls).1 ∧
    (Sdk.runCalls (jsVerifierCall l) .initialized calls).2 = (Sdk.runVerifier l calls).2.map fun x => (x.1, match x.2 with
      | .ok => .undefined
      | .proxyFor n => .name n
      | .output o => .output (convertVerifierOutput o)
      | .err k => .exception k
      | .dropped => .dropped) := by
  induction calls using List.reverseRecOn with
  | nil => exact ⟨rfl, rfl⟩
  | append_singleton calls call ih =>
    unfold Sdk.runVerifier at ih ⊢
    rw [Sdk.runCalls_snoc, Sdk.runCalls_snoc, List.map_append, ← ih.2, ← ih.1]
    exact ⟨rfl, rfl⟩

/-- **C120**: what JavaScript gets from `verify`, whatever the prover sends.  A name in the output is one for which a chain of valid certificates leads to one of the roots that the program gave
(or to one of Mozilla's if it gave none), with a signature of its key for this session.  The bytes in the authenticated ranges are those of the session, all
others are zero, and the time, version and lengths are the session's. -/
theorem C120_javascript (R : Reads) (P : Pki.WebPki) (hR : R.anchor = P.anchor) (c : JsVerifierConfig)
    (env : Protocol.Env)
    (hroots : ∀ l rs, convertVerifierConfig R c = .ok (l, rs) → env.certs = (P.newVerifier rs).toOption)
    (k : KeyBytes) (vm : ZkVm) (hk : HoldsKeys vm env.keys k) (hw : WellFormed env.tls) (version : TlsVersion)
    (calls : List VCall) (log : List (VCall × JsVReply)) (hlog : runJsVerifier R c calls = some log) (n : Nat)
    (m : Option WireMsg) (sent : Bool) (o : JsVerifierOutput)
    (h : log[n]? = some (.verify (sessionInfo env.tls version) (verifySteps env vm m sent), .output o)) :
    (∃ e, (.run e, .undefined) ∈ log.take n) ∧
    ∃ roots anchors, RootsFor R c.rootCerts roots ∧ roots.map R.anchor = anchors.map some ∧
    o.time = env.tls.time ∧ o.version = version ∧
    o.sentLength = (sessionData env.aes k env.tls).sent.length % 2 ^ 32 ∧
    o.recvLength = (sessionData env.aes k env.tls).received.length % 2 ^ 32 ∧
    (∀ t, o.transcript = some t → Shows (sessionData env.aes k env.tls).sent t.sent t.sentAuthed ∧
      Shows (sessionData env.aes k env.tls).received t.recv t.recvAuthed) ∧
    ∀ name, o.serverName = some name → ∃ (dns : ServerName) (hsd : HandshakeData) (key : ServerEphemKey) (endEntity : Bytes)
      (intermediates : List Bytes),
      name = dns.map (fun b => Char.ofNat b.toNat) ∧ env.tls.binding = some key ∧
      hsd.serverEphemeralKey = key ∧ hsd.certs = endEntity :: intermediates ∧
      Pki.CertOk P anchors endEntity intermediates dns env.tls.time ∧
      P.raw endEntity (Pki.ringAlg hsd.sigAlg).sig (hsd.clientRandom.toList ++ (hsd.serverRandom.toList ++ key.kxParams))
        hsd.sig = true := by
  unfold runJsVerifier at hlog
  cases hl : convertVerifierConfig R c with
  | error e => rw [hl] at hlog; cases hlog
  | ok x =>
    obtain ⟨l, rs⟩ := x
    rw [hl] at hlog
    simp only [Option.some.injEq] at hlog
    subst hlog
    rw [(runJs_verifier l calls).2, List.getElem?_map, Option.map_eq_some_iff] at h
    obtain ⟨⟨call, reply⟩, h1, h2⟩ := h
    simp only [Prod.mk.injEq] at h2
    obtain ⟨rfl, h2⟩ := h2
    cases reply with
    | ok => cases h2
    | proxyFor n => cases h2
    | err k => cases h2
    | dropped => cases h2
    | output so =>
      simp only [JsVReply.output.injEq] at h2
      subst h2
      obtain ⟨⟨e, he⟩, w, certs, -, hcerts, ⟨g1, g2, g3⟩, -, -⟩ :=
        Sdk.C120_output env k vm hk hw version l calls n m sent so h1
      have hrs := ((C114_verifier R c l rs).1 hl).2.2.2.2
      have hroots := hroots l rs hl
      rw [hcerts] at hroots
      unfold Pki.WebPki.newVerifier at hroots
      cases ha : P.anchors rs with
      | error e => rw [ha] at hroots; cases hroots
      | ok anchors =>
        rw [ha] at hroots
        simp only [Except.toOption, Option.some.injEq] at hroots
        subst hroots
        refine ⟨⟨e, ?_⟩, rs, anchors, hrs, by rw [hR]; exact Pki.anchors_ok.1 ha, by simp [convertVerifierOutput, g1], ?_,
          by simp [convertVerifierOutput, g1], by simp [convertVerifierOutput, g1], fun t ht => ?_, fun name hn => ?_⟩
        · rw [(runJs_verifier l calls).2, ← List.map_take]
          exact List.mem_map.2 ⟨_, he, rfl⟩
        · simp only [convertVerifierOutput, g1]
          cases version <;> rfl
        · obtain ⟨t, ht', rfl⟩ := Option.map_eq_some_iff.1 ht
          exact g2 t ht'
        · obtain ⟨dns, hsd, key, h3, h4, h5⟩ := g3 name hn
          obtain ⟨h6, e, is, h7, h8, -, h9⟩ := (Pki.C107_verifier P anchors hsd _ key dns).1 h5
          exact ⟨dns, hsd, key, e, is, h3, h4, h6.symm, h7, h8, h9⟩

/-! ## Both sides -/

/-- The position is in one of the ranges. -/
def Covers (ranges : List Rng) (i : Nat) : Prop := ∃ r ∈ ranges, r.1 ≤ i ∧ i < r.2

/-- What JavaScript asks for is inside of the data of the session, with algorithms that both parties have. -/
structure Askable (env : Protocol.Env) (data : Transcript) (r : JsReveal) (commit : Option JsCommit) : Prop where
  sent : ∀ i, Covers r.sent i → i < data.sent.length
  recv : ∀ i, Covers r.recv i → i < data.received.length
  commitSent : ∀ k, commit = some k → ∀ x ∈ k.sent, (env.hc x.algorithm.named.id).isSome ∧
    ∀ i, x.start ≤ i → i < x.stop → i < data.sent.length
  commitRecv : ∀ k, commit = some k → ∀ x ∈ k.recv, (env.hc x.algorithm.named.id).isSome ∧
    ∀ i, x.start ≤ i → i < x.stop → i < data.received.length

theorem redacts_roundtrip {data : Transcript} {s r : RangeSet} {p : PartialTranscript} (hp : data.toPartial s r = some p)
    (hs : ∀ i ∈ s, i < data.sent.length) (hr : ∀ i ∈ r, i < data.received.length)
    (hv : data.sent.length ≤ vecLimit ∧ data.received.length ≤ vecLimit) :
    ∃ c, p.compress = some c ∧ PartialTranscript.deserialize c = .ok p := by
  obtain ⟨p', hp', hred⟩ := C01_to_partial_redacts data s r hs hr
  rw [hp] at hp'
  obtain rfl := Option.some.inj hp'
  obtain ⟨e1, e2⟩ : p.sentAuthed = s ∧ p.receivedAuthed = r := by
    simp only [Transcript.toPartial, Option.bind_eq_bind, Option.bind_eq_some_iff, Option.pure_def,
      Option.some.injEq] at hp
    obtain ⟨_, _, _, _, rfl⟩ := hp
    exact ⟨rfl, rfl⟩
  have l1 : p.sent.length = data.sent.length := hred.len .sent
  have l2 : p.received.length = data.received.length := hred.len .received
  refine (C02_roundtrip_id_iff p (PartialTranscript.wf_iff.2 ⟨?_, ?_⟩) (by rw [l1, l2]; exact hv)).2 fun d i hi hl => ?_
  · rw [e1, RangeSet.endD_le_iff, l1]; exact hs
  · rw [e2, RangeSet.endD_le_iff, l2]; exact hr
  · cases d with
    | sent => exact hred.hidden .sent i (by simpa [bySide, PartialTranscript.authed, e1] using hi) (by rw [← hred.len .sent]; exact hl)
    | received =>
      exact hred.hidden .received i (by simpa [bySide, PartialTranscript.authed, e2] using hi) (by rw [← hred.len .received]; exact hl)

/-- **C121**: a JavaScript prover that has received the response and calls `reveal` with ranges inside of the data gets its
openings, and a JavaScript verifier to which its message arrives gets an output.  The output has the server's name if that was
asked for, and the authenticated ranges cover exactly the positions that the prover's program chose, with the bytes
of the session.  `vpEnd`: the verifier's VM is told the prover's inputs at the end of the proof. -/
theorem C121_honest (env : Protocol.Env) (k : KeyBytes) (certs : CertVerifier) (hcerts : env.certs = some certs)
    (hw : WellFormed env.tls) (name : ServerName) (hsd : HandshakeData) (blinders : Nat → Blinder)
    (data : Transcript) (hdata : data = sessionData env.aes k env.tls)
    (hlen : data.sent.length ≤ vecLimit ∧ data.received.length ≤ vecLimit)
    (vp : ZkVm) (hkp : HoldsKeys vp env.keys k) (c : SdkProverConfig) (p : JsProver) (hp : p.inner = .committed data)
    (r : JsReveal) (commit : Option JsCommit) (order : List CommitEntry → List CommitEntry) (ho : ∀ l, (order l).Perm l)
    (hask : Askable env data r commit)
    (hid : r.serverIdentity = true → ∃ key, env.tls.binding = some key ∧ hsd.verify certs env.tls.time key name = .ok ())
    (provider : HashProvider)
    (hprov : ∀ a f, env.hc a = some f → ∃ h, provider a = some h ∧ h.id = a ∧ ∀ m, h.hash m = (f m).toList) :
    ∃ msg openings cfg vpEnd, revealMsg data name hsd order r commit = some msg ∧
      (p.call c (.reveal r commit order (proveSteps env data vp name hsd blinders (some .ok)))).2.2 = .sdk (.output openings) ∧
      (∀ kk, commit = some kk →
        (∀ x ∈ kk.sent, ∃ op ∈ openings.sent, Sdk.Opens provider data .sent (.ofRanges [(x.start, x.stop)]) x.algorithm.named.id op) ∧
        ∀ x ∈ kk.recv, ∃ op ∈ openings.recv, Sdk.Opens provider data .received (.ofRanges [(x.start, x.stop)]) x.algorithm.named.id op) ∧
      Sdk.revealConfig data order (convertReveal r) (commit.map convertCommit) = .ok cfg ∧
      (Protocol.proverRest env data vp cfg blinders (some .ok)).1 = some vpEnd ∧
      ∀ (vv : ZkVm) (l : SdkVerifierConfig) (version : TlsVersion), HoldsKeys vv env.keys k → InStep vv.fill vp vv → Agree vp vv →
        (∀ a < vpEnd.mem.length, some (vv.fill a) = vpEnd.mem[a]?) →
        ∃ o, (jsVerifierCall l .committed (.verify (sessionInfo env.tls version) (verifySteps env vv (some msg) true))).2 = .output o ∧
          o.time = env.tls.time ∧ o.version = version ∧ o.sentLength = data.sent.length % 2 ^ 32 ∧
          o.recvLength = data.received.length % 2 ^ 32 ∧
          o.serverName = (if r.serverIdentity then some (name.map fun b => Char.ofNat b.toNat) else none) ∧
          (∀ t, o.transcript = some t → Shows data.sent t.sent t.sentAuthed ∧ Shows data.received t.recv t.recvAuthed) ∧
          (∀ i, (∃ t, o.transcript = some t ∧ Covers t.sentAuthed i) ↔ Covers r.sent i) ∧
          ∀ i, (∃ t, o.transcript = some t ∧ Covers t.recvAuthed i) ↔ Covers r.recv i := by
  have hrm : ∀ d i, RangesMem i ((convertReveal r).of d) → i < (data.data d).length := by
    intro d i hi
    rw [convertReveal_eq] at hi
    cases d with
    | sent => exact hask.sent i hi
    | received => exact hask.recv i hi
  have hca : ∀ d, ∀ x ∈ Sdk.commitArg (commit.map convertCommit) d, (env.hc x.algorithm.id).isSome ∧
      ∀ i, x.start ≤ i → i < x.stop → i < (data.data d).length := by
    intro d x hx
    cases commit with
    | none => cases d <;> cases hx
    | some kk =>
      cases d with
      | sent =>
        obtain ⟨y, hy, rfl⟩ := List.mem_map.1 (show x ∈ kk.sent.map convertCommitRange from hx)
        have := hask.commitSent kk rfl y hy
        rw [← convertHash_eq] at this
        exact this
      | received =>
        obtain ⟨y, hy, rfl⟩ := List.mem_map.1 (show x ∈ kk.recv.map convertCommitRange from hx)
        have := hask.commitRecv kk rfl y hy
        rw [← convertHash_eq] at this
        exact this
  obtain ⟨cfg, hcfg⟩ := Sdk.revealConfig_total (order := order) hrm
    (fun d x hx i h1 h2 => (hca d x hx).2 i h1 h2)
  obtain ⟨q1, q2, -, -⟩ := Sdk.revealConfig_ok ho hcfg
  have q5 := Sdk.request_entries ho hcfg
  have hrev : ∀ x, cfg.reveal = some x → (∀ i ∈ x.1, i < data.sent.length) ∧ ∀ i ∈ x.2, i < data.received.length := by
    intro x hx
    refine ⟨fun i hi => ?_, fun i hi => ?_⟩
    · exact hrm .sent i ((q2 .sent i).1 (by rw [hx]; exact hi))
    · exact hrm .received i ((q2 .received i).1 (by rw [hx]; exact hi))
  have hcom : ∀ q ∈ cfg.toRequest.hashes, (env.hc q.2.2).isSome ∧ ∀ i ∈ q.2.1, i < (data.data q.1).length := by
    intro q hq
    obtain ⟨x, hx, he⟩ := ((q5 q.1).2 q).1 (List.mem_filter.2 ⟨hq, by simp⟩)
    have := hca q.1 x hx
    rw [he]
    refine ⟨this.1, fun i hi => ?_⟩
    have h2 : RangesMem i [(x.start, x.stop)] := RangeSet.mem_ofRanges.1 hi
    obtain ⟨y, hy, h4, h3⟩ := h2
    simp only [List.mem_singleton] at hy
    subst hy
    exact this.2 i h4 h3
  subst hdata
  obtain ⟨vpEnd, pout, pt, h1, -, h3, h4, h5, h6⟩ := honest_session env.aes env.hc env.e certs blinders cfg name hsd hkp hw
    hrev hcom (by rw [q1, convertReveal_eq]; exact hid)
  have hpt : pt = cfg.reveal.bind (fun q => (sessionData env.aes k env.tls).toPartial q.1 q.2) := by
    have h4' := h4
    unfold proveRequestMsg at h4'
    cases hrv : cfg.reveal with
    | none => rw [hrv] at h4'; simpa using h4'.symm
    | some q =>
      rw [hrv] at h4'
      simp only [Option.map_eq_some_iff, Prod.mk.injEq, true_and] at h4'
      obtain ⟨p, hp, rfl⟩ := h4'
      exact hp.symm
  have hwire : ∃ w, WireMsg.ofMsg ⟨cfg.toRequest, if cfg.serverIdentity then some (name, hsd) else none, pt⟩ = some w ∧
      w.read = .ok ⟨cfg.toRequest, if cfg.serverIdentity then some (name, hsd) else none, pt⟩ := by
    cases hrv : cfg.reveal with
    | none =>
      rw [hrv] at hpt
      simp only [Option.bind_none] at hpt
      subst hpt
      exact ⟨_, rfl, rfl⟩
    | some q =>
      have hq := hrev q hrv
      obtain ⟨t, ht, -⟩ := C01_to_partial_redacts _ q.1 q.2 hq.1 hq.2
      rw [hrv] at hpt
      simp only [Option.bind_some, ht] at hpt
      subst hpt
      obtain ⟨cc, hc1, hc2⟩ := redacts_roundtrip ht hq.1 hq.2 hlen
      exact ⟨⟨cfg.toRequest, if cfg.serverIdentity then some (name, hsd) else none, some cc⟩, by simp only [WireMsg.ofMsg, hc1], by simp only [WireMsg.read, hc2]⟩
  obtain ⟨w, hw1, hw2⟩ := hwire
  have hcov : (∀ i, revealedIn cfg.reveal .sent i ↔
        ∃ t, (pt.map Sdk.SdkPartial.ofCore).map (fun t => JsPartial.mk t.sent t.sentAuthed t.recv t.recvAuthed) = some t ∧
          Covers t.sentAuthed i) ∧
      ∀ i, revealedIn cfg.reveal .received i ↔
        ∃ t, (pt.map Sdk.SdkPartial.ofCore).map (fun t => JsPartial.mk t.sent t.sentAuthed t.recv t.recvAuthed) = some t ∧
          Covers t.recvAuthed i := by
    cases hrv : cfg.reveal with
    | none =>
      rw [hrv] at hpt
      subst hpt
      exact ⟨fun i => ⟨fun h => h.elim, fun ⟨t, h, _⟩ => by cases h⟩, fun i => ⟨fun h => h.elim, fun ⟨t, h, _⟩ => by cases h⟩⟩
    | some q =>
      rw [hrv] at hpt
      have hq := hrev q hrv
      obtain ⟨t, ht, -⟩ := C01_to_partial_redacts _ q.1 q.2 hq.1 hq.2
      simp only [Option.bind_some, ht] at hpt
      subst hpt
      obtain ⟨e1, e2⟩ : t.sentAuthed = q.1 ∧ t.receivedAuthed = q.2 := by
        simp only [Transcript.toPartial, Option.bind_eq_bind, Option.bind_eq_some_iff, Option.pure_def,
          Option.some.injEq] at ht
        obtain ⟨_, _, _, _, rfl⟩ := ht
        exact ⟨rfl, rfl⟩
      refine ⟨fun i => ?_, fun i => ?_⟩
      · simp only [Option.map_some, Option.some.injEq, exists_eq_left', Sdk.SdkPartial.ofCore, e1]
        exact Iff.rfl
      · simp only [Option.map_some, Option.some.injEq, exists_eq_left', Sdk.SdkPartial.ofCore, e2]
        exact Iff.rfl
  have hpm : Protocol.proverMsg cfg name hsd (sessionData env.aes k env.tls) =
      some ⟨cfg.toRequest, if cfg.serverIdentity then some (name, hsd) else none, pt⟩ := by
    simp only [Protocol.proverMsg, h4, Option.map_some]
  have hho := Sdk.honestOutput_of_session env.aes env.hc env.e certs blinders vp env.keys k env.tls cfg hkp hw hrev hcom provider hprov
    vpEnd pout h1
  obtain ⟨ro, r1, r2⟩ := Sdk.C73_openings_partial provider _ order ho (convertReveal r) (commit.map convertCommit) cfg hcfg pout hho
  have hps : proveSteps env (sessionData env.aes k env.tls) vp name hsd blinders (some .ok) cfg = .done pout := by
    simp only [proveSteps, hpm, Option.bind_some, hw1, Protocol.proverRest, h1]
  refine ⟨w, ro, cfg, vpEnd, ?_, ?_, ?_, hcfg, by simp only [Protocol.proverRest, h1], ?_⟩
  · simp only [revealMsg, hcfg, hpm, Option.bind_some, hw1]
  · simp only [JsProver.call, Sdk.proverCall, hp, Sdk.proverReveal, hcfg, hps, r1]
  · intro kk hkk
    subst hkk
    refine ⟨fun x hx => ?_, fun x hx => ?_⟩
    · obtain ⟨op, o1, o2⟩ := (r2 .sent).1 (convertCommitRange x) (List.mem_map.2 ⟨x, hx, rfl⟩)
      exact ⟨op, o1, by rw [← convertHash_eq]; exact o2⟩
    · obtain ⟨op, o1, o2⟩ := (r2 .received).1 (convertCommitRange x) (List.mem_map.2 ⟨x, hx, rfl⟩)
      exact ⟨op, o1, by rw [← convertHash_eq]; exact o2⟩
  · intro vv l version hkv hst hag hF
    obtain ⟨vv', h7, -⟩ := h6 vv hkv ⟨hst, hag⟩ hF
    have hso : verifySteps env vv (some w) true =
        .done (Sdk.sessionOutput ⟨if cfg.serverIdentity then some name else none, pt, pout.commitments⟩) := by
      simp only [verifySteps, hw2, Sdk.acceptSteps, Protocol.VState.call, hcerts, h7]
    obtain ⟨w', certs', hww, hcc, ⟨g1, g2, g3⟩, g4, g5, -⟩ := Sdk.output_true (version := version) hkv hw hso
    refine ⟨convertVerifierOutput ⟨(if cfg.serverIdentity then some name else none).map Sdk.showName,
        ⟨env.tls.time, version, Sdk.appDataLength (sessionInfo env.tls version).sent,
          Sdk.appDataLength (sessionInfo env.tls version).recv⟩, pt.map Sdk.SdkPartial.ofCore⟩,
      by simp only [jsVerifierCall, Sdk.verifierCall, Sdk.verifierVerify, hso]; rfl, rfl, ?_, ?_, ?_, ?_, ?_, ?_, ?_⟩
    · cases version <;> rfl
    · simpa [convertVerifierOutput] using congrArg Sdk.SdkConnectionInfo.sentLength g1
    · simpa [convertVerifierOutput] using congrArg Sdk.SdkConnectionInfo.recvLength g1
    · simp only [convertVerifierOutput, Sdk.sessionOutput, q1, convertReveal_eq]
      cases r.serverIdentity <;> rfl
    · intro t ht
      obtain ⟨t, ht', rfl⟩ := Option.map_eq_some_iff.1 ht
      exact g2 t ht'
    · intro i
      refine (hcov.1 i).symm.trans ?_
      rw [q2 .sent i, convertReveal_eq]
      exact Iff.rfl
    · intro i
      refine (hcov.2 i).symm.trans ?_
      rw [q2 .received i, convertReveal_eq]
      exact Iff.rfl

/-! ## Examples -/

/-- Two ranges that touch, one received byte and the name; a commitment to a part that is not revealed. -/
def exJsReveal : JsReveal := ⟨[(0, 1), (1, 2)], [(0, 1)], true⟩

def exJsCommit : JsCommit := ⟨[⟨2, 4, .sha256⟩], []⟩

def exSdkConfig : SdkProverConfig := ⟨"a".toList, true, .mpc, 100, none, none, 100, none, none, .latency⟩

def exJsProver : JsProver := ⟨.committed exData, false⟩

def exBlinders : Nat → Blinder := fun _ => Vector.replicate 16 5

/-- The prover's memory after the proof. -/
def exJsFill (a : Nat) : Byte :=
  match Sdk.revealConfig exData id (convertReveal exJsReveal) (some (convertCommit exJsCommit)) with
  | .error _ => 0
  | .ok cfg =>
    match (Protocol.proverRest Protocol.exEnv exData (exZkVm fun _ => 0) cfg exBlinders (some .ok)).1 with
    | some vp => vp.mem.getD a 0
    | none => 0

theorem exAskable : Askable Protocol.exEnv exData exJsReveal (some exJsCommit) := by
  have h : ∀ (l : List Rng) (n : Nat), (∀ x ∈ l, x.2 ≤ n) → ∀ i, Covers l i → i < n :=
    fun l n h i ⟨x, hx, _, h2⟩ => Nat.lt_of_lt_of_le h2 (h x hx)
  refine ⟨h _ _ (by decide +kernel), h _ _ (by decide +kernel), ?_, ?_⟩
  · intro k hk
    cases hk
    intro x hx
    simp only [exJsCommit, List.mem_singleton] at hx
    subst hx
    exact ⟨by decide +kernel, fun i _ h2 => Nat.lt_of_lt_of_le h2 (by decide +kernel)⟩
  · intro k hk
    cases hk
    exact (fun x h => nomatch h)

/-- **C121**: a verifier that rejects, or whose answer does not arrive, gives no openings to the JavaScript prover: `reveal` throws,
and the prover has ended. -/
theorem C121_rejected (env : Protocol.Env) (data : Transcript) (vp : ZkVm) (name : ServerName) (hsd : HandshakeData)
    (blinders : Nat → Blinder) (answer : Option Protocol.Response) (ha : answer ≠ some .ok) (c : SdkProverConfig) (p : JsProver)
    (r : JsReveal) (commit : Option JsCommit) (order : List CommitEntry → List CommitEntry) :
    let out := p.call c (.reveal r commit order (proveSteps env data vp name hsd blinders answer))
    out.1.inner = .error ∧ ((∃ k, out.2.2 = .sdk (.err k)) ∨ out.2.2 = .sdk .dropped) := by
  have hs : ∀ cfg, proveSteps env data vp name hsd blinders answer cfg = .failed ∨
      proveSteps env data vp name hsd blinders answer cfg = .dropped := by
    intro cfg
    unfold proveSteps
    cases (Protocol.proverMsg cfg name hsd data).bind WireMsg.ofMsg with
    | none => exact .inr rfl
    | some m =>
      rcases answer with - | (- | reason)
      · exact .inl rfl
      · exact absurd rfl ha
      · exact .inl rfl
  have h : ∀ (s : Sdk.PState) x, x = Sdk.proverReveal s (convertReveal r) (commit.map convertCommit) order
        (proveSteps env data vp name hsd blinders answer) →
      x.1 = .error ∧ ((∃ k, x.2 = .err k) ∨ x.2 = .dropped) := by
    rintro s _ rfl
    cases s with
    | committed t =>
      simp only [Sdk.proverReveal]
      cases Sdk.revealConfig t order (convertReveal r) (commit.map convertCommit) with
      | error e => exact ⟨rfl, .inl ⟨_, rfl⟩⟩
      | ok cfg =>
        rcases hs cfg with h | h <;> simp only [h]
        · exact ⟨trivial, .inl ⟨_, rfl⟩⟩
        · exact ⟨trivial, .inr trivial⟩
    | _ => exact ⟨rfl, .inl ⟨_, rfl⟩⟩
  obtain ⟨h1, h2⟩ := h p.inner _ rfl
  refine ⟨h1, ?_⟩
  rcases h2 with ⟨k, h2⟩ | h2
  · exact .inl ⟨k, congrArg JsReply.sdk h2⟩
  · exact .inr (congrArg JsReply.sdk h2)

/-- Example for `C121_honest`: its hypotheses are met. -/
example := C121_honest Protocol.exEnv exKeyBytes exCerts rfl exTls_wf [1, 2] Protocol.exHsd exBlinders exData rfl
  (by decide +kernel) (exZkVm fun _ => 0) (exHoldsKeys _) exSdkConfig exJsProver rfl exJsReveal (some exJsCommit) id
  (fun _ => .refl _) exAskable (fun _ => ⟨_, rfl, by decide +kernel⟩)
  (fun a => (exCircuits a).map fun f => ⟨a, fun m => (f m).toList⟩)
  (fun a f hf => ⟨⟨a, fun m => (f m).toList⟩, by simp [show exCircuits a = some f from hf], rfl, fun _ => rfl⟩)

/-- The run of the example: the two touching ranges are one in the output, and the other bytes are zero. -/
example :
    (match revealMsg exData [1, 2] Protocol.exHsd id exJsReveal (some exJsCommit) with
      | none => false
      | some msg =>
        match (jsVerifierCall ⟨100, 100, none, none⟩ .committed (.verify (sessionInfo exTls .v12)
            (verifySteps Protocol.exEnv (exZkVm exJsFill) (some msg) true))).2 with
        | .output o => decide (o.serverName = some [Char.ofNat 1, Char.ofNat 2] ∧ o.time = 5 ∧ o.sentLength = 5 ∧ o.recvLength = 1 ∧
            o.transcript.map (·.sentAuthed) = some [(0, 2)] ∧ o.transcript.map (·.recvAuthed) = some [(0, 1)] ∧
            o.transcript.map (fun t => t.sent.drop 2) = some [0, 0, 0] ∧
            o.transcript.map (·.recv) = some exData.received)
        | _ => false) = true := by decide +kernel

/-- Example for `C120_output` and `C120_javascript`: a run that reaches `verify`, with the prover's message, and with one in
which the revealed byte that the server sent is changed. -/
example :
    (match revealMsg exData [1, 2] Protocol.exHsd id exJsReveal (some exJsCommit) with
      | none => false
      | some msg =>
        let run : Option WireMsg → Option (VCall × JsVReply) := fun m => (Sdk.runCalls (jsVerifierCall ⟨100, 100, none, none⟩) .initialized
          [.connect (.done ()), .setup (.done (.proxy "a".toList (.done ()))), .setServerSocket, .run (.done ()),
            .verify (sessionInfo exTls .v12) (verifySteps Protocol.exEnv (exZkVm exJsFill) m true)]).2[4]?
        let forged : WireMsg := { msg with transcript := msg.transcript.map fun c => { c with receivedAuthed := [0] } }
        (match run (some msg), run (some forged) with
          | some (_, .output o), some (_, .exception _) => decide (o.serverName.isSome ∧ o.transcript.isSome)
          | _, _ => false)) = true := by decide +kernel

end Tlsn.Wasm
