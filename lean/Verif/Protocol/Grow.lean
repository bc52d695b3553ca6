import Verif.Auth.ProveProps

/-! # The memory of the verifier over one proof -/

namespace Tlsn.Protocol

theorem hashCommitInner_grew (hc : HashCircuits) (refs : TranscriptRefs) (n : Nat) (l : List (Direction × RangeSet × HashAlgId))
    (vm vm' : ZkVm) (outs : List HashOut) (h : hashCommitInner hc (fun _ => none) refs n l vm = .ok (vm', outs)) : Grew vm vm' := by
  induction l generalizing n vm vm' outs with
  | nil => cases h; exact .refl _
  | cons q l ih =>
    obtain ⟨d, idx, alg⟩ := q
    obtain ⟨⟨v1, b⟩, h1, h⟩ := Outcome.bind_eq_ok.mp h
    obtain ⟨⟨v2, x⟩, h2, h⟩ := Outcome.bind_eq_ok.mp h
    obtain ⟨⟨v3, t⟩, h3, h⟩ := Outcome.bind_eq_ok.mp h
    cases h
    have g1 : Grew vm v1 := by cases h1; exact ⟨_, rfl⟩
    have g2 : Grew v1 v2 := by
      simp only [hashOne] at h2
      split at h2
      · cases h2
      · split at h2
        · cases h2
        · cases h2; exact ⟨_, rfl⟩
    exact (g1.trans g2).trans (ih _ _ _ _ h3)

theorem verifyHash_grew (hc : HashCircuits) (vm vm' : ZkVm) (refs : TranscriptRefs) (l : List (Direction × RangeSet × HashAlgId))
    (cs : List PlaintextHash) (h : verifyHash hc vm refs l = .ok (vm', cs)) : Grew vm vm' := by
  obtain ⟨⟨v1, outs⟩, h1, h⟩ := Outcome.bind_eq_ok.mp h
  cases h
  have := hashCommitInner_grew hc refs 0 l vm v1 outs h1
  exact this.trans ⟨[], by simp⟩

/-- A proof that is accepted leaves what was in the memory. -/
theorem verifySession_grew (aes : AesFn) (hc : HashCircuits) (e : Bool) (certs : CertVerifier) {vm : ZkVm}
    {keys : KeyRefs} {k : KeyBytes} {tls : SessionView} (request : ProveRequest)
    {handshake : Option (ServerName × HandshakeData)} {transcript : Option PartialTranscript}
    (hk : HoldsKeys vm keys k) (hw : WellFormed tls) (hwf : ∀ t, transcript = some t → t.WF) {vm' : ZkVm} {out : VerifierOutput}
    (h : verifySession aes hc e certs vm keys tls request handshake transcript = .ok (vm', out)) : Grew vm vm' := by
  obtain ⟨t, ht, h⟩ := Outcome.bind_eq_ok.mp h
  obtain ⟨name, hn, h⟩ := Outcome.bind_eq_ok.mp h
  obtain ⟨hl1, hl2, _, _⟩ := chooseTranscript_ok ht
  obtain ⟨hwf1, hwf2⟩ := PartialTranscript.wf_iff.1 (chooseTranscript_wf hwf ht)
  have hps := authPre_sent hk hw hl1 hwf1
  obtain ⟨⟨v1, r1, p1⟩, h1, h⟩ := Outcome.bind_eq_ok.mp h
  obtain ⟨⟨v2, r2, p2⟩, h2, h⟩ := Outcome.bind_eq_ok.mp h
  obtain ⟨⟨v3, cs⟩, h3, h⟩ := Outcome.bind_eq_ok.mp h
  obtain ⟨_, -, h⟩ := Outcome.bind_eq_ok.mp h
  obtain ⟨_, -, h⟩ := Outcome.bind_eq_ok.mp h
  cases h
  generalize commitSets request.hashes (∅, ∅) = cm at *
  have g1 : Grew vm v1 := by
    by_cases ho : t.sent.length < cm.1.endD
    · rw [verifyPlaintext_oob aes e cm.1 hps ho] at h1
      split at h1 <;> cases h1
    · obtain ⟨vm1, refs1, proof1, e1, g1, _⟩ := verifyPlaintext_data aes e cm.1 hps (by omega)
      rw [e1] at h1
      cases h1
      exact g1
  have hpr := authPre_recv (hk.mono g1) hw hl2 hwf2
  have g2 : Grew v1 v2 := by
    by_cases ho : t.received.length < cm.2.endD
    · rw [verifyPlaintext_oob aes e cm.2 hpr ho] at h2
      split at h2 <;> cases h2
    · obtain ⟨vm1, refs1, proof1, e1, g1, _⟩ := verifyPlaintext_data aes e cm.2 hpr (by omega)
      rw [e1] at h2
      cases h2
      exact g1
  have g3 : Grew v2 vm' := by
    rw [verifyCommitments_eq] at h3
    split at h3
    · cases h3; exact .refl _
    · cases hx : verifyHash hc v2 ⟨r1, r2⟩ request.hashes with
      | ok x =>
        rw [hx] at h3
        cases h3
        exact verifyHash_grew hc _ _ _ _ _ hx
      | err x => rw [hx] at h3; cases h3
      | panic => rw [hx] at h3; cases h3
  exact (g1.trans g2).trans g3

end Tlsn.Protocol
