import Verif.Sdk.MachineProps
import Verif.Protocol.Props

/-! # The SDK's verifier over the protocol

`SdkVerifier::verify` (crates/sdk-core/src/verifier.rs:244-307) with the protocol inside: the message of the prover as it
arrives, the proof, and the output as the program gets it. -/

namespace Tlsn.Sdk

/-! ## Model -/

/-- crates/tlsn/src/msg.rs:18-23 `ProveRequestMsg` as it is sent: the partial transcript in its compressed form
(crates/core/src/transcript.rs:163-179). -/
structure WireMsg where
  request : ProveRequest
  handshake : Option (ServerName × HandshakeData)
  transcript : Option Compressed

/-- The message as the verifier reads it (`expect_next`, crates/tlsn/src/verifier.rs:432-440, with the `serde` implementation
of the partial transcript). -/
def WireMsg.read (m : WireMsg) : Outcome CompressedError Protocol.ProveMsg :=
  match m.transcript with
  | none => .ok ⟨m.request, m.handshake, none⟩
  | some c =>
    match PartialTranscript.deserialize c with
    | .ok t => .ok ⟨m.request, m.handshake, some t⟩
    | .err e => .err e
    | .panic => .panic

/-- The message as the prover sends it; `none` is a panic (crates/core/src/transcript.rs:195-218). -/
def WireMsg.ofMsg (m : Protocol.ProveMsg) : Option WireMsg :=
  match m.transcript with
  | none => some ⟨m.request, m.handshake, none⟩
  | some t =>
    match t.compress with
    | none => none
    | some c => some ⟨m.request, m.handshake, some c⟩

/-- crates/sdk-core/src/verifier.rs:300-303: the name as text.  A `DnsName` is made of ASCII characters. -/
def showName (n : ServerName) : Text := n.map fun b => Char.ofNat b.toNat

/-- crates/sdk-core/src/verifier.rs:299-306, the parts that come from the protocol. -/
def sessionOutput (o : VerifierOutput) : SessionOutput := ⟨o.serverName.map showName, o.transcript⟩

/-- crates/sdk-core/src/verifier.rs:283-293: `verify`, then `accept`; `close` does nothing
(crates/tlsn/src/verifier.rs:456-460).  `msg` is `none` if the message does not arrive or is not readable. -/
def acceptSteps (env : Protocol.Env) (vm : ZkVm) (msg : Option Protocol.ProveMsg) (sent : Bool) : Ext SessionOutput :=
  match (((Protocol.VState.committed vm).call env (.verify msg)).1.call env (.accept sent)).2.1 with
  | .output o => .done (sessionOutput o)
  | .panicked => .dropped
  | _ => .failed

/-- crates/sdk-core/src/verifier.rs:283-293 with the message as it arrives (`none`: the channel fails) and whether the answer can
be sent.  After a panic nothing is returned to the program (`dropped`). -/
def verifySteps (env : Protocol.Env) (vm : ZkVm) (m : Option WireMsg) (sent : Bool) : Ext SessionOutput :=
  match m with
  | none => acceptSteps env vm none sent
  | some w =>
    match w.read with
    | .ok msg => acceptSteps env vm (some msg) sent
    | .err _ => acceptSteps env vm none sent
    | .panic => .dropped

/-- crates/sdk-core/src/verifier.rs:249-281: what is read of the TLS transcript. -/
def sessionInfo (tls : SessionView) (version : TlsVersion) : SessionInfo where
  time := tls.time
  version := version
  sent := tls.sent.map fun r => (decide (r.typ = .applicationData), r.ciphertext.length)
  recv := tls.recv.map fun r => (decide (r.typ = .applicationData), r.ciphertext.length)

/-! ## Specification -/

/-- What bytes and ranges say of data: of the same length, the ranges are inside, in order, with a gap between them, the bytes in
the ranges are those of the data, and the others are zero. -/
structure Shows (data bytes : Bytes) (authed : List Rng) : Prop where
  length : bytes.length = data.length
  inside : ∀ r ∈ authed, r.1 < r.2 ∧ r.2 ≤ data.length
  ordered : authed.Pairwise fun r s => r.2 < s.1
  true : ∀ r ∈ authed, ∀ i, r.1 ≤ i → i < r.2 → bytes[i]? = data[i]?
  zero : ∀ i < data.length, (∀ r ∈ authed, ¬ (r.1 ≤ i ∧ i < r.2)) → bytes[i]? = some 0

/-- The output of a verifier is true of a session: `certs` are the certificates it trusts, `data` the data of the session. -/
structure SaysTrue (certs : CertVerifier) (tls : SessionView) (version : TlsVersion) (data : Transcript) (name : Option Text)
    (connection : SdkConnectionInfo) (transcript : Option SdkPartial) : Prop where
  connection : connection = ⟨tls.time, version, data.sent.length % 2 ^ 32, data.received.length % 2 ^ 32⟩
  transcript : ∀ t, transcript = some t → Shows data.sent t.sent t.sentAuthed ∧ Shows data.received t.recv t.recvAuthed
  name : ∀ n, name = some n → ∃ dns hsd key, n = dns.map (fun b => Char.ofNat b.toNat) ∧ tls.binding = some key ∧
    HandshakeData.verify hsd certs tls.time key dns = .ok ()

/-! ## Proofs -/

theorem canon_pairwise : ∀ l : List Rng, Canon l → (∀ r ∈ l, r.1 < r.2) ∧ l.Pairwise fun r s => r.2 < s.1
  | [], _ => ⟨(fun _ h => nomatch h), .nil⟩
  | [r], h => ⟨fun s hs => by simp only [List.mem_singleton] at hs; subst hs; exact h, List.pairwise_singleton _ _⟩
  | r :: s :: t, h => by
    obtain ⟨h1, h2, h3⟩ := h
    obtain ⟨a, b⟩ := canon_pairwise (s :: t) h3
    refine ⟨fun x hx => ?_, List.pairwise_cons.2 ⟨fun x hx => ?_, b⟩⟩
    · rcases List.mem_cons.1 hx with rfl | hx
      · exact h1
      · exact a x hx
    · rcases List.mem_cons.1 hx with rfl | hx
      · exact h2
      · have := (List.pairwise_cons.1 b).1 x hx
        have := a s (by simp)
        omega

theorem shows_of {data bytes : Bytes} {S : RangeSet} (hl : bytes.length = data.length) (hin : ∀ i ∈ S, i < data.length)
    (ht : ∀ i ∈ S, bytes[i]? = data[i]?) (hz : ∀ i, ¬ i ∈ S → i < data.length → bytes[i]? = some 0) :
    Shows data bytes S.ranges := by
  obtain ⟨a, b⟩ := canon_pairwise _ S.canon
  refine ⟨hl, fun r hr => ⟨a r hr, ?_⟩, b, fun r hr i h1 h2 => ht i ⟨r, hr, h1, h2⟩, fun i hi h => hz i ?_ hi⟩
  · have := a r hr
    have := hin (r.2 - 1) ⟨r, hr, by omega, by omega⟩
    omega
  · rintro ⟨r, hr, h1⟩
    exact h r hr h1

theorem read_ok {w : WireMsg} {msg : Protocol.ProveMsg} (h : w.read = .ok msg) :
    msg.request = w.request ∧ msg.handshake = w.handshake ∧
      ∀ t, msg.transcript = some t → ∃ c, w.transcript = some c ∧ PartialTranscript.deserialize c = .ok t := by
  unfold WireMsg.read at h
  cases hc : w.transcript with
  | none => simp only [hc] at h; cases h; exact ⟨rfl, rfl, (fun _ h => nomatch h)⟩
  | some c =>
    simp only [hc] at h
    cases hd : PartialTranscript.deserialize c with
    | err e => simp only [hd] at h; cases h
    | panic => simp only [hd] at h; cases h
    | ok t =>
      simp only [hd] at h
      cases h
      exact ⟨rfl, rfl, fun t' ht => by cases ht; exact ⟨c, rfl, hd⟩⟩

theorem acceptSteps_done {env : Protocol.Env} {vm : ZkVm} {msg : Option Protocol.ProveMsg} {sent : Bool} {so : SessionOutput}
    (h : acceptSteps env vm msg sent = .done so) :
    ∃ m certs vm' out, msg = some m ∧ sent = true ∧ env.certs = some certs ∧ so = sessionOutput out ∧
      verifySession env.aes env.hc env.e certs vm env.keys env.tls m.request m.handshake m.transcript = .ok (vm', out) := by
  unfold acceptSteps at h
  cases msg with
  | none => cases sent <;> cases h
  | some m =>
    cases sent with
    | false => cases h
    | true =>
      simp only [Protocol.VState.call] at h
      cases hc : env.certs with
      | none => simp only [hc] at h; cases h
      | some certs =>
        simp only [hc] at h
        cases hv : verifySession env.aes env.hc env.e certs vm env.keys env.tls m.request m.handshake m.transcript with
        | err e => simp only [hv] at h; cases h
        | panic => simp only [hv] at h; cases h
        | ok x =>
          obtain ⟨vm', out⟩ := x
          simp only [hv] at h
          cases h
          exact ⟨m, certs, vm', out, rfl, rfl, rfl, rfl, hv⟩

theorem verifySteps_done {env : Protocol.Env} {vm : ZkVm} {m : Option WireMsg} {sent : Bool} {so : SessionOutput}
    (h : verifySteps env vm m sent = .done so) :
    ∃ w msg, m = some w ∧ w.read = .ok msg ∧ acceptSteps env vm (some msg) sent = .done so := by
  unfold verifySteps at h
  have hnone : acceptSteps env vm none sent ≠ .done so := by
    intro h
    obtain ⟨_, _, _, _, h, _⟩ := acceptSteps_done h
    cases h
  cases m with
  | none => exact absurd h hnone
  | some w =>
    simp only at h
    cases hr : w.read with
    | ok msg => simp only [hr] at h; exact ⟨w, msg, rfl, hr, h⟩
    | err e => simp only [hr] at h; exact absurd h hnone
    | panic => simp only [hr] at h; cases h

theorem appDataLength_eq (rs : List Record) :
    appDataLength (rs.map fun r => (decide (r.typ = .applicationData), r.ciphertext.length)) =
      (collectCiphertext rs).length % 2 ^ 32 := by
  unfold appDataLength
  congr 1
  induction rs with
  | nil => rfl
  | cons r rs ih =>
    simp only [collectCiphertext] at ih ⊢
    by_cases h : r.typ = .applicationData
    · simp only [List.map_cons, List.filter_cons, h, decide_true, if_true, List.sum_cons, List.flatMap_cons,
        List.length_append, ih]
    · simp only [List.map_cons, List.filter_cons, h, decide_false, Bool.false_eq_true, if_false, ih]

theorem output_call {l : SdkVerifierConfig} {s : VState} {info : SessionInfo} {e : Ext SessionOutput} {o : SdkVerifierOutput}
    (h : (verifierCall l s (.verify info e)).2 = .output o) :
    s = .committed ∧ ∃ so, e = .done so ∧ o = ⟨so.serverName,
      ⟨info.time, info.version, appDataLength info.sent, appDataLength info.recv⟩, so.transcript.map SdkPartial.ofCore⟩ := by
  unfold verifierCall verifierVerify at h
  cases s with
  | committed =>
    cases e with
    | done so => cases h; exact ⟨rfl, so, rfl, rfl⟩
    | failed => cases h
    | dropped => cases h
  | _ => cases h

theorem output_true {env : Protocol.Env} {k : KeyBytes} {vm : ZkVm} (hk : HoldsKeys vm env.keys k) (hw : WellFormed env.tls)
    {version : TlsVersion} {m : Option WireMsg} {sent : Bool} {so : SessionOutput}
    (h : verifySteps env vm m sent = .done so) :
    ∃ w certs, m = some w ∧ env.certs = some certs ∧
      SaysTrue certs env.tls version (sessionData env.aes k env.tls) so.serverName
        ⟨env.tls.time, version, appDataLength (sessionInfo env.tls version).sent,
          appDataLength (sessionInfo env.tls version).recv⟩ (so.transcript.map SdkPartial.ofCore) ∧
      (so.transcript.isSome ↔ w.request.reveal.isSome) ∧
      (∀ t, so.transcript = some t → w.request.reveal = some (t.sentAuthed, t.receivedAuthed)) ∧
      so.serverName = w.handshake.map fun x => showName x.1 := by
  obtain ⟨w, msg, rfl, hr, h⟩ := verifySteps_done h
  obtain ⟨_, certs, vm', out, h1, -, hcerts, rfl, hv⟩ := acceptSteps_done h
  cases h1
  obtain ⟨r1, r2, r3⟩ := read_ok hr
  obtain ⟨a1, a2, a3, a4, -⟩ := C33_output env.aes env.hc env.e certs vm env.keys k env.tls msg.request msg.handshake
    msg.transcript hk hw (fun t ht => by
      obtain ⟨c, -, hc⟩ := r3 t ht
      exact (C03_deserialize_sound c t hc).1) vm' out hv
  refine ⟨w, certs, rfl, hcerts, ⟨?_, fun t ht => ?_, fun n hn => ?_⟩, by rw [← r1]; exact a1, fun t ht => ?_, ?_⟩
  · simp only [sessionInfo, appDataLength_eq, sent_length_eq, recv_length_eq]
  · obtain ⟨t, ht', rfl⟩ := Option.map_eq_some_iff.1 ht
    obtain ⟨b1, b2, b3, -, b5, b6⟩ := a2 t ht'
    obtain ⟨c, -, hc⟩ := r3 t b1
    obtain ⟨w1, w2, w3, w4, w5, -, -, w6, w7⟩ := C03_deserialize_sound c t hc
    exact ⟨shows_of b2 (fun i hi => by rw [← b2]; exact w1 .sent i hi) b5
        (fun i hi hl => w6 i (by rw [← w4]; exact hi) (by rw [← w2, b2]; exact hl)),
      shows_of b3 (fun i hi => by rw [← b3]; exact w1 .received i hi) b6
        (fun i hi hl => w7 i (by rw [← w5]; exact hi) (by rw [← w3, b3]; exact hl))⟩
  · simp only [sessionOutput, a3, Option.map_map, Option.map_eq_some_iff] at hn
    obtain ⟨⟨dns, hsd⟩, hh, rfl⟩ := hn
    obtain ⟨key, k1, k2⟩ := a4 dns hsd hh
    exact ⟨dns, hsd, key, rfl, k1, k2⟩
  · rw [← r1]
    exact (a2 t ht).2.2.2.1
  · simp only [sessionOutput, a3, r2, Option.map_map]; rfl

/-- **C120**: whatever arrives from the prover, if `verify` of the SDK returns an output, then the verifier was in the state after a
successful `run`, and the output is true of the session: its time, version and lengths, the bytes in the authenticated
ranges, zero in all others, and a name only if a certificate that the verifier trusts was checked for it.  A transcript is
there exactly if the prover asked to show one. -/
theorem C120_output (env : Protocol.Env) (k : KeyBytes) (vm : ZkVm) (hk : HoldsKeys vm env.keys k) (hw : WellFormed env.tls)
    (version : TlsVersion) (l : SdkVerifierConfig) (calls : List VCall) (n : Nat) (m : Option WireMsg) (sent : Bool)
    (o : SdkVerifierOutput)
    (h : (runVerifier l calls).2[n]? =
      some (.verify (sessionInfo env.tls version) (verifySteps env vm m sent), .output o)) :
    (∃ e, (.run e, .ok) ∈ (runVerifier l calls).2.take n) ∧
    ∃ w certs, m = some w ∧ env.certs = some certs ∧
      SaysTrue certs env.tls version (sessionData env.aes k env.tls) o.serverName o.connection o.transcript ∧
      (o.transcript.isSome ↔ w.request.reveal.isSome) ∧ (o.serverName.isSome ↔ w.handshake.isSome) := by
  unfold runVerifier at h ⊢
  obtain ⟨h0, -, h2⟩ := runCalls_get h
  rw [h0]
  have hrun : (runCalls (verifierCall l) .initialized (calls.take n)).1 = .committed →
      ∃ e, (VCall.run e, VReply.ok) ∈ (runCalls (verifierCall l) .initialized (calls.take n)).2 := by
    refine runCalls_inv (step := verifierCall l) (s0 := .initialized)
      (P := fun s log => s = .committed → ∃ e, (VCall.run e, VReply.ok) ∈ log) (fun h => nomatch h)
      (fun s log call hp hs => ?_) (calls.take n)
    have old : s = .committed → ∃ e, (VCall.run e, VReply.ok) ∈ log ++ [(call, (verifierCall l s call).2)] := fun h => by
      obtain ⟨e, he⟩ := hp h
      exact ⟨e, List.mem_append_left _ he⟩
    cases call with
    | connect e => cases s <;> first | (cases hs; done) | (cases e <;> cases hs)
    | setup e =>
      simp only [verifierCall, verifierSetup] at hs
      cases s <;> first | (cases hs; done) | skip
      cases e with
      | failed => cases hs
      | dropped => cases hs
      | done p =>
        cases p with
        | mpc c a =>
          simp only at hs
          split at hs
          · cases hs
          · cases a <;> cases hs
        | proxy n a => cases a <;> cases hs
    | setServerSocket => cases s <;> first | exact old rfl | cases hs
    | verify info e => cases s <;> first | (cases hs; done) | (cases e <;> cases hs)
    | run e =>
      refine ⟨e, List.mem_append_right _ ?_⟩
      cases s with
      | acceptedMpc => cases e <;> first | (cases hs; done) | simp [verifierCall]
      | acceptedProxy b => cases b <;> first | (cases hs; done) | (cases e <;> first | (cases hs; done) | simp [verifierCall])
      | _ => cases hs
  generalize runCalls (verifierCall l) .initialized (calls.take n) = st at h2 hrun
  obtain ⟨hs, so, hso, ho⟩ := output_call h2.symm
  refine ⟨hrun hs, ?_⟩
  subst ho
  obtain ⟨w, certs, h3, h4, h5, h6, -, h8⟩ := output_true (version := version) hk hw hso
  refine ⟨w, certs, h3, h4, h5, by simpa using h6, ?_⟩
  simp only [h8]
  cases w.handshake <;> simp

end Tlsn.Sdk
