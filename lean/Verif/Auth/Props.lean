import Verif.Auth.SessionLemmas
import Verif.Auth.Sync

/-!
# Plaintext authentication and the verifier's decision (C32, C33, C34, C48, C64)

`sessionData`, `Commits` and the other words of the statements are defined in `Verif.Auth.Spec`.
-/

namespace Tlsn

/-! ## A session for the examples -/

/-- A block cipher for the examples. -/
def exAes : AesFn := fun k b => Vector.ofFn fun i => k.getD i 0 + 3 * b.getD i 0 + 1

/-- The keys of the examples: the bytes 0, 1, 2, … of memory. -/
def exKeyRefs : KeyRefs := ⟨⟨0, 16⟩, ⟨16, 4⟩, ⟨20, 16⟩, ⟨36, 4⟩⟩

def exKeyBytes : KeyBytes :=
  ⟨(List.range 16).map UInt8.ofNat, (List.range' 16 4).map UInt8.ofNat, (List.range' 20 16).map UInt8.ofNat,
    (List.range' 36 4).map UInt8.ofNat⟩

/-- A VM that holds the keys; the other party's private inputs are given. -/
def exZkVm (fill : Nat → Byte) : ZkVm := ⟨(List.range 40).map UInt8.ofNat, fill, [], []⟩

theorem exHoldsKeys (fill : Nat → Byte) : HoldsKeys (exZkVm fill) exKeyRefs exKeyBytes :=
  ⟨⟨Nat.le_of_ble_eq_true rfl, rfl⟩, ⟨Nat.le_of_ble_eq_true rfl, rfl⟩, ⟨Nat.le_of_ble_eq_true rfl, rfl⟩,
    ⟨Nat.le_of_ble_eq_true rfl, rfl⟩⟩

/-- Two sent records, with a handshake record between them, and one received record. -/
def exTls : SessionView where
  sent := [⟨1, .applicationData, none, [0, 0, 0, 0, 0, 0, 0, 1], [10, 20, 30], none⟩,
    ⟨2, .handshake, none, [], [99], none⟩,
    ⟨3, .applicationData, none, [0, 0, 0, 0, 0, 0, 0, 3], [40, 50], none⟩]
  recv := [⟨1, .applicationData, none, [0, 0, 0, 0, 0, 0, 0, 9], [7], none⟩]
  time := 5
  binding := some ⟨[4]⟩

theorem exTls_wf : WellFormed exTls := by
  intro r hr ht
  simp only [exTls, List.mem_cons, List.not_mem_nil, or_false] at hr
  rcases hr with (rfl | rfl | rfl) | rfl <;> first | rfl | exact absurd ht (by decide)

/-- The data of the session. -/
def exData : Transcript := sessionData exAes exKeyBytes exTls

/-- The hash of the examples. -/
def exCircuits : HashCircuits := fun a => if a = 1 then some fun m => Vector.ofFn fun i => m.getD i 0 else none

/-- Everything of the received data and two bytes of the sent data are revealed; two sent bytes, one of
them private, are committed. -/
def exProveRequest : ProveRequest where
  serverIdentity := true
  reveal := some (RangeSet.ofRange 0 2, RangeSet.ofRange 0 1)
  transcriptCommit := some ⟨[(.sent, RangeSet.ofRange 1 4, 1)]⟩

/-- The honest partial transcript. -/
def exPartial : PartialTranscript where
  sent := exData.sent.take 2 ++ [0, 0, 0]
  received := exData.received
  sentAuthed := RangeSet.ofRange 0 2
  receivedAuthed := RangeSet.ofRange 0 1

theorem exPartial_wf : ∀ t, some exPartial = some t → t.WF := by
  rintro t h
  obtain rfl := Option.some.inj h
  exact PartialTranscript.wf_iff.2 (by decide +kernel)

/-- The other party's honest private inputs: the sent bytes 2 and 3 are at 42 and 43. -/
def exFill : Nat → Byte := fun a => (exData.sent[a - 40]?).getD 0

/-- The verifier for the examples: every certificate is fine. -/
def exCerts : CertVerifier := ⟨fun _ => true, fun _ _ _ => true, fun _ _ => true, fun _ _ _ _ => true⟩

def exIdentity : Option (ServerName × HandshakeData) :=
  some ([1, 2], ⟨[[1]], .rsaPkcs1Sha256, [2], Vector.replicate 32 0, Vector.replicate 32 0, ⟨[4]⟩⟩)

/-! ## C32: authenticated plaintext decrypts the recorded ciphertext -/

/-- **C32** For every record list, every set of revealed ranges and every set of committed ranges inside of the
plaintext, for the decryptions `D` of the records in order: `verify_plaintext` succeeds with references `refs`
that resolve every committed position, and the proof is either accepted or rejected as invalid.  It is
accepted exactly when every revealed byte is the decrypted byte at its position, and the prover's private
input behind every committed position that is not revealed is the decrypted byte at that position. -/
theorem C32_accept_iff (aes : AesFn) (e : Bool) (vm : ZkVm) (key iv : VmVec) (plaintext : Bytes)
    (records : List Record) (reveal commit : RangeSet)
    (hkey : key.addr + key.len ≤ vm.mem.length) (hiv : iv.addr + iv.len ≤ vm.mem.length)
    (hnonce : ∀ r ∈ records, r.nonce.length = 8)
    (hlen : plaintext.length = (records.flatMap (·.ciphertext)).length)
    (hreveal : ∀ x ∈ reveal, x < plaintext.length) (hcommit : ∀ x ∈ commit, x < plaintext.length) :
    ∃ vm' refs proof,
      verifyPlaintext aes e vm key iv plaintext (records.flatMap (·.ciphertext)) records reveal commit =
        .ok (vm', refs, proof) ∧
      (∀ x ∈ commit, (refs.addrAt x).isSome) ∧
      (proof.verify aes = .ok () ∨ proof.verify aes = .err .invalidPlaintext) ∧
      (proof.verify aes = .ok () ↔
        (∀ x ∈ reveal, plaintext[x]? = (records.flatMap (decryptRecord aes (vm.read key) (vm.read iv)))[x]?) ∧
        ∀ x ∈ commit, x ∉ reveal → ∀ a, refs.addrAt x = some a →
          (records.flatMap (decryptRecord aes (vm.read key) (vm.read iv)))[x]? = some (vm.fill a)) := by
  obtain ⟨vm', refs, proof, h1, h2, h3, h4, h5⟩ := verifyPlaintext_data aes e (vm := vm) (key := key) (iv := iv)
    (k := vm.read key) (i := vm.read iv) (p := plaintext) (records := records) (reveal := reveal) commit
    ⟨⟨hkey, rfl⟩, ⟨hiv, rfl⟩, hnonce, rfl, hlen, RangeSet.endD_le_iff.2 hreveal⟩ (RangeSet.endD_le_iff.2 hcommit)
  refine ⟨vm', refs, proof, h1, ?_, ?_, ?_⟩
  · intro x hx
    obtain ⟨j, _, _, ha⟩ := addrAt_layout_mem vm.mem.length _
      (allocRanges_commit e reveal commit plaintext.length x hx)
    rw [h3, ha]; rfl
  · rcases h5 with h | h
    · exact .inl h.1
    · exact .inr h.1
  · constructor
    · intro hok
      rcases h5 with h | h
      · exact ⟨h.2.1, h.2.2.2⟩
      · rw [h.1] at hok; cases hok
    · rintro ⟨g1, g2⟩
      rcases h5 with h | ⟨_, ⟨x, hx, hne⟩ | ⟨x, hx, hxr, a, ha, hne⟩⟩
      · exact h.1
      · exact absurd (g1 x hx) hne
      · exact absurd (g2 x hx hxr a ha) hne

/-- **C32** When the proof is accepted, reading the references of any range of the committed set yields exactly the
decrypted bytes of that range. -/
theorem C32_references (aes : AesFn) (e : Bool) (vm : ZkVm) (key iv : VmVec) (plaintext : Bytes)
    (records : List Record) (reveal commit : RangeSet)
    (hkey : key.addr + key.len ≤ vm.mem.length) (hiv : iv.addr + iv.len ≤ vm.mem.length)
    (hnonce : ∀ r ∈ records, r.nonce.length = 8)
    (hlen : plaintext.length = (records.flatMap (·.ciphertext)).length)
    (hreveal : ∀ x ∈ reveal, x < plaintext.length) (hcommit : ∀ x ∈ commit, x < plaintext.length)
    (vm' : ZkVm) (refs : RangeMap) (proof : PlaintextProof)
    (h : verifyPlaintext aes e vm key iv plaintext (records.flatMap (·.ciphertext)) records reveal commit =
      .ok (vm', refs, proof)) (hok : proof.verify aes = .ok ())
    (idx : RangeSet) (hidx : ∀ x ∈ idx, x ∈ commit) (r : Rng) (hr : r ∈ idx.ranges) :
    ∃ v, refs.get r = some v ∧ some (vm'.read v) =
      slice (records.flatMap (decryptRecord aes (vm.read key) (vm.read iv))) r.1 r.2 := by
  obtain ⟨vm'', refs', proof', h1, h2, h3, h4, h5⟩ := verifyPlaintext_data aes e (vm := vm) (key := key) (iv := iv)
    (k := vm.read key) (i := vm.read iv) (p := plaintext) (records := records) (reveal := reveal) commit
    ⟨⟨hkey, rfl⟩, ⟨hiv, rfl⟩, hnonce, rfl, hlen, RangeSet.endD_le_iff.2 hreveal⟩ (RangeSet.endD_le_iff.2 hcommit)
  rw [h] at h1
  simp only [Outcome.ok.injEq, Prod.mk.injEq] at h1
  obtain ⟨rfl, rfl, rfl⟩ := h1
  rcases h5 with g | g
  · obtain ⟨v, b, e1, _, e2, e3⟩ := g.2.2.1.read1
      (fun x hx => allocRanges_commit e reveal commit plaintext.length x (hidx x hx)) hr
    exact ⟨v, e1, by rw [e2, e3]⟩
  · rw [g.1] at hok; cases hok

/-- Example for `C32_accept_iff`: the hypotheses hold of the records of a session with two records, a revealed
range and a committed range across the record boundary; the honest inputs are accepted, a wrong private
input and a wrong revealed byte are not. -/
example :
    (∀ r ∈ appRecords exTls.sent, r.nonce.length = 8) ∧
    exPartial.sent.length = ((appRecords exTls.sent).flatMap (·.ciphertext)).length ∧
    (∀ x ∈ RangeSet.ofRange 1 4, x < exPartial.sent.length) ∧
    (match verifyPlaintext exAes true (exZkVm exFill) ⟨0, 16⟩ ⟨16, 4⟩ exPartial.sent [10, 20, 30, 40, 50]
        (appRecords exTls.sent) (RangeSet.ofRange 0 2) (RangeSet.ofRange 1 4) with
      | .ok (_, _, proof) => (match proof.verify exAes with | .ok () => true | _ => false)
      | _ => false) = true ∧
    (match verifyPlaintext exAes true (exZkVm fun a => if a = 43 then 0 else exFill a) ⟨0, 16⟩ ⟨16, 4⟩
        exPartial.sent [10, 20, 30, 40, 50] (appRecords exTls.sent) (RangeSet.ofRange 0 2)
        (RangeSet.ofRange 1 4) with
      | .ok (_, _, proof) => (match proof.verify exAes with | .ok () => true | _ => false)
      | _ => false) = false ∧
    (match verifyPlaintext exAes true (exZkVm exFill) ⟨0, 16⟩ ⟨16, 4⟩ [0, 0, 0, 0, 0]
        [10, 20, 30, 40, 50] (appRecords exTls.sent) (RangeSet.ofRange 0 2)
        (RangeSet.ofRange 1 4) with
      | .ok (_, _, proof) => (match proof.verify exAes with | .ok () => true | _ => false)
      | _ => false) = false := by
  refine ⟨?_, by decide +kernel, ?_, by decide +kernel, by decide +kernel, by decide +kernel⟩
  · exact appRecords_nonce fun r hr => exTls_wf r (.inl hr)
  · exact RangeSet.endD_le_iff.1 (by decide +kernel)

/-! ## C33: the output of the verifier -/

/-- **C33** For every request, handshake data and partial transcript a prover may send (a received partial
transcript is well-formed, see C03): if the verifier returns an output then
- a transcript is output exactly when the request asked for revealed data;
- the transcript that is output is the one the prover sent, its lengths are those of the application data of
  the session, its authenticated sets are the requested ones, and its authenticated bytes are the
  session's application data;
- a server name is output exactly when the prover sent one, and then the handshake data verified for this name,
  the session's time and the session's ephemeral key;
- the commitments are, one for each requested one and in this order, commitments to the session's application
  data at the requested positions with the requested algorithm. -/
theorem C33_output (aes : AesFn) (hc : HashCircuits) (e : Bool) (certs : CertVerifier) (vm : ZkVm)
    (keys : KeyRefs) (k : KeyBytes) (tls : SessionView) (request : ProveRequest)
    (handshake : Option (ServerName × HandshakeData)) (transcript : Option PartialTranscript)
    (hk : HoldsKeys vm keys k) (hw : WellFormed tls) (hwf : ∀ t, transcript = some t → t.WF)
    (vm' : ZkVm) (out : VerifierOutput)
    (h : verifySession aes hc e certs vm keys tls request handshake transcript = .ok (vm', out)) :
    (out.transcript.isSome ↔ request.reveal.isSome) ∧
    (∀ t, out.transcript = some t → transcript = some t ∧
      t.sent.length = (sessionData aes k tls).sent.length ∧
      t.received.length = (sessionData aes k tls).received.length ∧
      request.reveal = some (t.sentAuthed, t.receivedAuthed) ∧
      (∀ x ∈ t.sentAuthed, t.sent[x]? = (sessionData aes k tls).sent[x]?) ∧
      (∀ x ∈ t.receivedAuthed, t.received[x]? = (sessionData aes k tls).received[x]?)) ∧
    out.serverName = handshake.map (·.1) ∧
    (∀ name data, handshake = some (name, data) →
      ∃ key, tls.binding = some key ∧ data.verify certs tls.time key name = .ok ()) ∧
    Pairwise2 (Commits hc (sessionData aes k tls)) request.hashes out.commitments := by
  cases ht : chooseTranscript (collectCiphertext tls.sent) (collectCiphertext tls.recv) request transcript with
  | err x => simp [verifySession, ht] at h
  | panic => simp [verifySession, ht] at h
  | ok t =>
  cases hn : checkIdentity certs tls handshake with
  | err x => simp [verifySession, ht, hn] at h
  | panic => simp [verifySession, ht, hn] at h
  | ok name =>
  have hv := verifySession_verdict aes hc e certs request hk hw hwf ht hn
  rw [h] at hv
  generalize hres : (Outcome.ok (vm', out) : Outcome ProvingError (ZkVm × VerifierOutput)) = res at hv
  obtain ⟨l1, l2, c1, c2⟩ := chooseTranscript_ok ht
  cases hv with
  | sentOob g => split at hres <;> cases hres
  | recvOob _ g => split at hres <;> cases hres
  | unsupported => cases hres
  | badSent => cases hres
  | badRecv => cases hres
  | good g1 g2 gs gr vm'' cs hcs =>
    simp only [Outcome.ok.injEq, Prod.mk.injEq] at hres
    obtain ⟨rfl, rfl⟩ := hres
    refine ⟨?_, ?_, ?_, ?_, hcs⟩
    · cases request.reveal <;> simp
    · intro u hu
      cases hr : request.reveal with
      | none => simp [hr] at hu
      | some r =>
        simp [hr] at hu
        subst hu
        obtain ⟨d1, d2, d3⟩ := c2 r hr
        refine ⟨d1, ?_, ?_, by rw [d2, d3], gs, gr⟩
        · rw [l1, sent_length_eq]
        · rw [l2, recv_length_eq]
    · unfold checkIdentity at hn
      cases handshake with
      | none => simp at hn; subst hn; rfl
      | some p =>
        obtain ⟨n, d⟩ := p
        simp only at hn
        cases hb : tls.binding with
        | none => simp [hb] at hn
        | some key =>
          simp only [hb] at hn
          cases hd : d.verify certs tls.time key n with
          | error er => simp [hd] at hn
          | ok u => simp [hd] at hn; subst hn; rfl
    · rintro n d rfl
      unfold checkIdentity at hn
      simp only at hn
      cases hb : tls.binding with
      | none => simp [hb] at hn
      | some key =>
        simp only [hb] at hn
        cases hd : d.verify certs tls.time key n with
        | error er => simp [hd] at hn
        | ok u => exact ⟨key, rfl, hd⟩

/-- **C33** What is not proven is an error: a missing transcript, wrong lengths, wrong authenticated sets, and
handshake data that do not verify. -/
theorem C33_rejects (aes : AesFn) (hc : HashCircuits) (e : Bool) (certs : CertVerifier) (vm : ZkVm)
    (keys : KeyRefs) (tls : SessionView) (request : ProveRequest)
    (handshake : Option (ServerName × HandshakeData)) (transcript : Option PartialTranscript)
    (h : (∃ r, request.reveal = some r ∧
          (transcript = none ∨
            ∃ t, transcript = some t ∧
              (t.sent.length ≠ (collectCiphertext tls.sent).length ∨
                t.received.length ≠ (collectCiphertext tls.recv).length ∨
                t.sentAuthed ≠ r.1 ∨ t.receivedAuthed ≠ r.2))) ∨
      (∃ name data, handshake = some (name, data) ∧
        ∀ key, tls.binding = some key → data.verify certs tls.time key name ≠ .ok ())) :
    ∃ err, verifySession aes hc e certs vm keys tls request handshake transcript = .err err := by
  cases ht : chooseTranscript (collectCiphertext tls.sent) (collectCiphertext tls.recv) request transcript with
  | err x => exact ⟨x, by simp [verifySession, ht]⟩
  | panic =>
    unfold chooseTranscript at ht
    (repeat' split at ht) <;> cases ht
  | ok t =>
    rcases h with ⟨r, hr, h⟩ | ⟨name, data, rfl, h⟩
    · obtain ⟨l1, l2, _, c2⟩ := chooseTranscript_ok ht
      obtain ⟨d1, d2, d3⟩ := c2 r hr
      rcases h with h | ⟨u, hu, h⟩
      · rw [h] at d1; cases d1
      · rw [d1] at hu
        obtain rfl := Option.some.inj hu
        rcases h with h | h | h | h
        · exact absurd l1 h
        · exact absurd l2 h
        · exact absurd d2 h
        · exact absurd d3 h
    · cases hb : tls.binding with
      | none => exact ⟨.bindingVersion, by simp [verifySession, ht, checkIdentity, hb]⟩
      | some key =>
        cases hd : data.verify certs tls.time key name with
        | error er => exact ⟨.certificate er, by simp [verifySession, ht, checkIdentity, hb, hd]⟩
        | ok u => exact absurd hd (h key hb)

/-- Example for `C33_output`: an accepted session with revealed and committed data and a server name. -/
example :
    (match verifySession exAes exCircuits true exCerts (exZkVm exFill) exKeyRefs exTls exProveRequest
        exIdentity (some exPartial) with
      | .ok (_, out) => decide (out.transcript = some exPartial ∧ out.serverName = some [1, 2] ∧
          out.commitments.length = 1)
      | _ => false) = true := by decide +kernel

/-! ## C34: crashes -/

/-- **C34** A malicious request that crashes the verifier: the received data are revealed in full and a
commitment to five of its bytes, of which it has one, is requested. -/
theorem C34_crash :
    verifySession exAes exCircuits true exCerts (exZkVm exFill) exKeyRefs exTls
      { exProveRequest with transcriptCommit := some ⟨[(.received, RangeSet.ofRange 0 5, 1)]⟩ }
      exIdentity (some exPartial) = .panic := by
  have h : (match verifySession exAes exCircuits true exCerts (exZkVm exFill) exKeyRefs exTls
      { exProveRequest with transcriptCommit := some ⟨[(.received, RangeSet.ofRange 0 5, 1)]⟩ }
      exIdentity (some exPartial) with
      | .panic => true
      | _ => false) = true := by decide +kernel
  revert h
  split
  · exact fun _ => by assumption
  · intro h; cases h

/-- **C34** The only crashes: the verifier panics exactly when the transcript and the identity are acceptable,
and a commitment is requested to a position outside of a direction that is revealed in full (in the sent
direction, or in the received direction while the sent one is within bounds).  For an empty direction
`e` says whether the empty set counts as the full one. -/
theorem C34_panic_iff (aes : AesFn) (hc : HashCircuits) (e : Bool) (certs : CertVerifier) (vm : ZkVm)
    (keys : KeyRefs) (k : KeyBytes) (tls : SessionView) (request : ProveRequest)
    (handshake : Option (ServerName × HandshakeData)) (transcript : Option PartialTranscript)
    (hk : HoldsKeys vm keys k) (hw : WellFormed tls) (hwf : ∀ t, transcript = some t → t.WF) :
    verifySession aes hc e certs vm keys tls request handshake transcript = .panic ↔
      ∃ t name, chooseTranscript (collectCiphertext tls.sent) (collectCiphertext tls.recv) request transcript = .ok t ∧
        checkIdentity certs tls handshake = .ok name ∧
        (((∃ q ∈ request.hashes, q.1 = .sent ∧ ∃ x ∈ q.2.1, t.sent.length ≤ x) ∧
            (∀ x < t.sent.length, x ∈ t.sentAuthed) ∧ (t.sent.length = 0 → e = true)) ∨
          ((∀ q ∈ request.hashes, q.1 = .sent → ∀ x ∈ q.2.1, x < t.sent.length) ∧
            (∃ q ∈ request.hashes, q.1 = .received ∧ ∃ x ∈ q.2.1, t.received.length ≤ x) ∧
            (∀ x < t.received.length, x ∈ t.receivedAuthed) ∧ (t.received.length = 0 → e = true))) := by
  have keyS : ∀ n, (commitSets request.hashes (∅, ∅)).1.endD ≤ n ↔
      ∀ q ∈ request.hashes, q.1 = .sent → ∀ x ∈ q.2.1, x < n := by
    intro n
    rw [RangeSet.endD_le_iff]
    constructor
    · intro h q hq h1 x hx
      exact h x ((mem_commitSets _ _ x).1.2 (.inr ⟨q, hq, h1, hx⟩))
    · intro h x hx
      rcases (mem_commitSets _ _ x).1.1 hx with h0 | ⟨q, hq, h1, h2⟩
      · exact absurd h0 (RangeSet.not_mem_empty x)
      · exact h q hq h1 x h2
  have keyR : ∀ n, (commitSets request.hashes (∅, ∅)).2.endD ≤ n ↔
      ∀ q ∈ request.hashes, q.1 = .received → ∀ x ∈ q.2.1, x < n := by
    intro n
    rw [RangeSet.endD_le_iff]
    constructor
    · intro h q hq h1 x hx
      exact h x ((mem_commitSets _ _ x).2.2 (.inr ⟨q, hq, h1, hx⟩))
    · intro h x hx
      rcases (mem_commitSets _ _ x).2.1 hx with h0 | ⟨q, hq, h1, h2⟩
      · exact absurd h0 (RangeSet.not_mem_empty x)
      · exact h q hq h1 x h2
  have negS : ∀ n, n < (commitSets request.hashes (∅, ∅)).1.endD ↔
      ∃ q ∈ request.hashes, q.1 = .sent ∧ ∃ x ∈ q.2.1, n ≤ x := by
    intro n
    rw [← Nat.not_le, keyS]
    simp only [Classical.not_forall, exists_prop, Nat.not_lt]
  have negR : ∀ n, n < (commitSets request.hashes (∅, ∅)).2.endD ↔
      ∃ q ∈ request.hashes, q.1 = .received ∧ ∃ x ∈ q.2.1, n ≤ x := by
    intro n
    rw [← Nat.not_le, keyR]
    simp only [Classical.not_forall, exists_prop, Nat.not_lt]
  constructor
  · intro h
    cases ht : chooseTranscript (collectCiphertext tls.sent) (collectCiphertext tls.recv) request transcript with
    | err x => simp [verifySession, ht] at h
    | panic =>
      unfold chooseTranscript at ht
      (repeat' split at ht) <;> cases ht
    | ok t =>
    cases hn : checkIdentity certs tls handshake with
    | err x => simp [verifySession, ht, hn] at h
    | panic =>
      unfold checkIdentity at hn
      (repeat' split at hn) <;> cases hn
    | ok name =>
    refine ⟨t, name, rfl, rfl, ?_⟩
    obtain ⟨hb1, hb2⟩ := PartialTranscript.wf_iff.1 (chooseTranscript_wf hwf ht)
    have hv := verifySession_verdict aes hc e certs request hk hw hwf ht hn
    rw [h] at hv
    generalize hres : (Outcome.panic : Outcome ProvingError (ZkVm × VerifierOutput)) = res at hv
    cases hv with
    | sentOob g =>
      by_cases hr : isRevealAll e t.sentAuthed t.sent.length = true
      · exact .inl ⟨(negS _).1 g, (isRevealAll_iff hb1).1 hr⟩
      · rw [if_neg hr] at hres; cases hres
    | recvOob g1 g =>
      by_cases hr : isRevealAll e t.receivedAuthed t.received.length = true
      · exact .inr ⟨(keyS _).1 g1, (negR _).1 g, (isRevealAll_iff hb2).1 hr⟩
      · rw [if_neg hr] at hres; cases hres
    | unsupported => cases hres
    | badSent => cases hres
    | badRecv => cases hres
    | good => cases hres
  · rintro ⟨t, name, ht, hn, h⟩
    obtain ⟨hb1, hb2⟩ := PartialTranscript.wf_iff.1 (chooseTranscript_wf hwf ht)
    have hv := verifySession_verdict aes hc e certs request hk hw hwf ht hn
    generalize hres : verifySession aes hc e certs vm keys tls request handshake transcript = res at hv ⊢
    cases hv with
    | sentOob g =>
      rcases h with ⟨_, h⟩ | ⟨h, _⟩
      · rw [if_pos ((isRevealAll_iff hb1).2 h)]
      · have := (keyS _).2 h; omega
    | recvOob g1 g =>
      rcases h with ⟨h, _⟩ | ⟨_, _, h⟩
      · have := (negS _).2 h; omega
      · rw [if_pos ((isRevealAll_iff hb2).2 h)]
    | unsupported g1 g2 =>
      rcases h with ⟨h, _⟩ | ⟨_, h, _⟩
      · have := (negS _).2 h; omega
      · have := (negR _).2 h; omega
    | badSent g1 g2 =>
      rcases h with ⟨h, _⟩ | ⟨_, h, _⟩
      · have := (negS _).2 h; omega
      · have := (negR _).2 h; omega
    | badRecv g1 g2 =>
      rcases h with ⟨h, _⟩ | ⟨_, h, _⟩
      · have := (negS _).2 h; omega
      · have := (negR _).2 h; omega
    | good g1 g2 =>
      rcases h with ⟨h, _⟩ | ⟨_, h, _⟩
      · have := (negS _).2 h; omega
      · have := (negR _).2 h; omega

/-- **C34** A request whose commit ranges are inside of the session's data never crashes the verifier, whatever
else the prover sends. -/
theorem C34_in_bounds_no_panic (aes : AesFn) (hc : HashCircuits) (e : Bool) (certs : CertVerifier) (vm : ZkVm)
    (keys : KeyRefs) (k : KeyBytes) (tls : SessionView) (request : ProveRequest)
    (handshake : Option (ServerName × HandshakeData)) (transcript : Option PartialTranscript)
    (hk : HoldsKeys vm keys k) (hw : WellFormed tls) (hwf : ∀ t, transcript = some t → t.WF)
    (hin : ∀ q ∈ request.hashes, ∀ x ∈ q.2.1, x < ((sessionData aes k tls).data q.1).length) :
    verifySession aes hc e certs vm keys tls request handshake transcript ≠ .panic := by
  rw [Ne, C34_panic_iff aes hc e certs vm keys k tls request handshake transcript hk hw hwf]
  rintro ⟨t, name, ht, _, h⟩
  obtain ⟨l1, l2, _⟩ := chooseTranscript_ok ht
  have e1 : (sessionData aes k tls).sent.length = t.sent.length := by
    rw [l1, sent_length_eq]
  have e2 : (sessionData aes k tls).received.length = t.received.length := by
    rw [l2, recv_length_eq]
  rcases h with ⟨⟨q, hq, hd, x, hx, hl⟩, _⟩ | ⟨_, ⟨q, hq, hd, x, hx, hl⟩, _⟩
  · have := hin q hq x hx
    rw [hd] at this
    simp only [Transcript.data] at this
    omega
  · have := hin q hq x hx
    rw [hd] at this
    simp only [Transcript.data] at this
    omega

/-- Example for `C34_in_bounds_no_panic`. -/
example : ∀ q ∈ exProveRequest.hashes, ∀ x ∈ q.2.1,
    x < ((sessionData exAes exKeyBytes exTls).data q.1).length := by
  intro q hq
  simp only [exProveRequest, ProveRequest.hashes, List.mem_cons, List.not_mem_nil, or_false] at hq
  subst hq
  exact RangeSet.endD_le_iff.1 (by decide +kernel)

/-! ## C64: the server's identity -/

/-- **C64** (disagreement) The request may say that the server's identity is proven although no identity is
checked: the verifier accepts, and outputs no server name. -/
theorem C64_identity_may_be_missing :
    exProveRequest.serverIdentity = true ∧
    ∃ vm' out, verifySession exAes exCircuits true exCerts (exZkVm exFill) exKeyRefs exTls exProveRequest
      none (some exPartial) = .ok (vm', out) ∧ out.serverName = none ∧ out.transcript = some exPartial := by
  refine ⟨rfl, ?_⟩
  have h : (match verifySession exAes exCircuits true exCerts (exZkVm exFill) exKeyRefs exTls exProveRequest
        none (some exPartial) with
      | .ok (_, out) => decide (out.serverName = none ∧ out.transcript = some exPartial)
      | _ => false) = true := by decide +kernel
  revert h
  split
  · rename_i vm' out h
    intro hd
    have := of_decide_eq_true hd
    exact ⟨vm', out, h, this.1, this.2⟩
  · intro h; cases h

/-- **C64** The flag of the request has no influence on the verifier: the result is the same for either value. -/
theorem C64_flag_ignored (aes : AesFn) (hc : HashCircuits) (e : Bool) (certs : CertVerifier) (vm : ZkVm)
    (keys : KeyRefs) (tls : SessionView) (request : ProveRequest)
    (handshake : Option (ServerName × HandshakeData)) (transcript : Option PartialTranscript) (b : Bool) :
    verifySession aes hc e certs vm keys tls { request with serverIdentity := b } handshake transcript =
      verifySession aes hc e certs vm keys tls request handshake transcript := rfl

/-! ## C48: range maps -/

/-- **C48** A map is built exactly when the items are in order and do not overlap; it then consists of the items. -/
theorem C48_from_iter (items : List (Nat × VmVec)) (m : RangeMap) :
    RangeMap.fromIter 0 items = some m ↔
      m = items ∧ items.Pairwise fun e f => e.1 + e.2.len ≤ f.1 := by
  constructor
  · intro h
    have := RangeMap.fromIter_eq h
    exact ⟨this.1, this.2.2⟩
  · rintro ⟨rfl, h⟩
    exact RangeMap.fromIter_some (fun _ _ => Nat.zero_le _) h

/-- **C48** `get` returns a reference exactly when one item holds the whole range, and then it is the part of this
item with exactly the requested positions; otherwise (absent, crossing items, or empty) it fails. -/
theorem C48_get (items : List (Nat × VmVec)) (hne : ∀ e ∈ items, 0 < e.2.len) (m : RangeMap)
    (hm : RangeMap.fromIter 0 items = some m) (lo hi : Nat) (s : VmVec) :
    m.get (lo, hi) = some s ↔
      lo < hi ∧ ∃ e ∈ items, e.1 ≤ lo ∧ hi ≤ e.1 + e.2.len ∧ s = ⟨e.2.addr + (lo - e.1), hi - lo⟩ := by
  obtain ⟨rfl, h⟩ := (C48_from_iter items m).1 hm
  exact RangeMap.get_eq_some ⟨h, hne⟩

/-- **C48** `index` returns, for every range of the set in order, the reference `get` returns for it; it fails
exactly when `get` fails for one of them, and it does not panic. -/
theorem C48_index (items : List (Nat × VmVec)) (hne : ∀ e ∈ items, 0 < e.2.len) (m : RangeMap)
    (hm : RangeMap.fromIter 0 items = some m) (idx : RangeSet) :
    (∀ m', m.index idx.ranges = .ok m' ↔
      idx.ranges.mapM (fun r => (m.get r).map fun s => (r.1, s)) = some m') ∧
    (m.index idx.ranges = .err () ↔ ∃ r ∈ idx.ranges, m.get r = none) ∧
    m.index idx.ranges ≠ .panic := by
  obtain ⟨rfl, h⟩ := (C48_from_iter items m).1 hm
  have hg : RangeMap.Good m := ⟨h, hne⟩
  have hok := fun m' => RangeMap.index_eq_ok hg idx.canon.nonempty (m' := m')
  have hnp := RangeMap.index_not_panic (m := m) idx.canon.nonempty
  refine ⟨hok, ?_, hnp⟩
  have key : ∀ rs : List Rng, rs.mapM (fun r => (m.get r).map fun s => (r.1, s)) = none ↔
      ∃ r ∈ rs, m.get r = none := by
    intro rs
    induction rs with
    | nil => simp
    | cons r t ih =>
      cases hr : m.get r with
      | none => simp [hr]
      | some s =>
        simp only [List.mapM_cons, hr, Option.map_some, Option.bind_eq_bind, Option.bind_some,
          List.mem_cons, exists_eq_or_imp, reduceCtorEq, false_or, ← ih]
        cases List.mapM (fun r => (m.get r).map fun s => (r.1, s)) t <;> simp
  rw [← key]
  cases hx : m.index idx.ranges with
  | panic => exact absurd hx hnp
  | err u => 
    simp only [true_iff]
    cases hq : idx.ranges.mapM (fun r => (m.get r).map fun s => (r.1, s)) with
    | none => rfl
    | some m' => rw [(hok m').2 hq] at hx; cases hx
  | ok m' => simp [(hok m').1 hx]

/-- Example for C48: two items; a range inside of the second one, one that crosses them, one that is absent. -/
example : RangeMap.fromIter 0 [(2, ⟨10, 3⟩), (5, ⟨20, 4⟩)] = some [(2, ⟨10, 3⟩), (5, ⟨20, 4⟩)] ∧
    RangeMap.get [(2, ⟨10, 3⟩), (5, ⟨20, 4⟩)] (6, 9) = some ⟨21, 3⟩ ∧
    RangeMap.get [(2, ⟨10, 3⟩), (5, ⟨20, 4⟩)] (4, 6) = none ∧
    RangeMap.get [(2, ⟨10, 3⟩), (5, ⟨20, 4⟩)] (0, 1) = none := by decide

end Tlsn
