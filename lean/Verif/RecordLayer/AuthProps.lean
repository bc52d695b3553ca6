import Verif.RecordLayer.Limits

/-! # C57: what the leader may rely on; and what fails

Authenticity of delivered records, and witnesses for the cases excluded in C28 and C29. -/

namespace Tlsn

/-- A decrypted record that comes from a record in `I` with a right tag. -/
def FromAuthentic (f : AeadFn) (role : Role) (I : List Receiving) (p : PlainRecord) : Prop :=
  ∃ s ∈ I, s.Authentic f ∧ p = s.plain f role

theorem auth_step {k : SessionFns} {peer : Nat → Bytes} {r : RecordLayer} {n m : Nat} {I : List Receiving}
    (hw : r.Wf n m) (hm : m < 2 ^ 64) (hr : r.role = .leader)
    (hb : ∀ op ∈ r.decryptBuffer, op.toReceiving ∈ I)
    (hd : ∀ p ∈ r.decryptedBuffer, p.typ = .applicationData → FromAuthentic k.server .leader I p)
    (c : RlCall) (hi : ∀ s ∈ incoming m [(c, (r.step k peer c).2)], s ∈ I) :
    let r' := (r.step k peer c).1
    (∀ op ∈ r'.decryptBuffer, op.toReceiving ∈ I) ∧
    (∀ p ∈ r'.decryptedBuffer, p.typ = .applicationData → FromAuthentic k.server .leader I p) ∧
    (∀ p ∈ delivered [(c, (r.step k peer c).2)], p.typ = .applicationData →
      FromAuthentic k.server .leader I p) := by
  cases c with
  | startTraffic => exact ⟨hb, hd, by simp [RecordLayer.step, delivered]⟩
  | pushEncrypt t v l p =>
    simp only [RecordLayer.step, RecordLayer.pushEncrypt]
    repeat' split
    all_goals exact ⟨hb, hd, by simp [RlResult.ofExcept, delivered]⟩
  | pushDecrypt t v nc ct tg =>
    have hseq : r.readSeq = m := by rw [hw.read]; exact Nat.mod_eq_of_lt hm
    simp only [RecordLayer.step, RecordLayer.pushDecrypt] at hi ⊢
    split
    · exact ⟨hb, hd, by simp [RlResult.ofExcept, delivered]⟩
    · split
      · exact ⟨hb, hd, by simp [RlResult.ofExcept, delivered]⟩
      · rename_i h1 h2
        rw [if_neg h1, if_neg h2] at hi
        refine ⟨fun op ho => ?_, hd, by simp [RlResult.ofExcept, delivered]⟩
        rcases List.mem_append.1 ho with ho | ho
        · exact hb op ho
        · simp only [List.mem_singleton] at ho
          subst ho
          refine hi _ ?_
          simp [RlResult.ofExcept, incoming, DecryptOp.toReceiving, hseq]
  | nextEncrypted =>
    simp only [RecordLayer.step, RecordLayer.nextEncrypted]
    repeat' split
    all_goals exact ⟨hb, hd, by simp [delivered]⟩
  | nextDecrypted =>
    simp only [RecordLayer.step, RecordLayer.nextDecrypted]
    split
    · exact ⟨hb, hd, by simp [delivered]⟩
    · rename_i x rest hx
      split
      · exact ⟨hb, hd, by simp [delivered]⟩
      · refine ⟨hb, fun p hp => hd p (by rw [hx]; exact List.mem_cons_of_mem _ hp), ?_⟩
        intro p hp
        simp [delivered] at hp
        exact hd p (by rw [hx, hp]; simp)
  | commit env =>
    simp only [RecordLayer.step]
    cases hc : r.commit k env with
    | mk r' x =>
    have hdel : delivered [(RlCall.commit env, RlResult.ofCommit x)] = [] := by cases x <;> rfl
    rw [hdel]
    by_cases hx : ∀ p, x ≠ .ok p
    · obtain ⟨d1, b, hb', rfl⟩ := commit_fail hc hx
      refine ⟨fun op ho => ?_, hd, by simp⟩
      rcases hb' with rfl | rfl
      · simp at ho
      · exact hb op ho
    · have hx : ∃ p, x = .ok p := by
        cases x with
        | ok p => exact ⟨p, rfl⟩
        | err e => exact absurd (by simp) hx
        | panic => exact absurd (by simp) hx
      obtain ⟨⟨s, c⟩, rfl⟩ := hx
      obtain ⟨otp, c0, d1, hs, hbe, rfl, rfl, hau⟩ := commit_ok hw hc
      refine ⟨by simp, fun p hp hpt => ?_, by simp⟩
      rcases List.mem_append.1 hp with hp | hp
      · exact hd p hp hpt
      · obtain ⟨op, ho, rfl⟩ := List.mem_map.1 hp
        exact ⟨op.toReceiving, hb op ho, hau hr op ho hpt, by rw [hr]⟩
  | flush env d =>
    simp only [RecordLayer.step]
    have hdel : ∀ x, delivered [(RlCall.flush env d, RlResult.ofExcept x)] = [] := by
      intro x; cases x <;> rfl
    rw [hdel]
    by_cases hst : (∀ otp s c, r.state ≠ .online otp s c) ∨ env.locksFree = false
    · obtain ⟨e, he, hf⟩ := flush_not_started (k := k) (peer := peer) (d := d) hst
      rw [hf]; exact ⟨hb, hd, by simp⟩
    · have hl : env.locksFree = true := by
        cases hx : env.locksFree
        · exact absurd (.inr hx) hst
        · rfl
      have hol : ∃ otp s c, r.state = .online otp s c := by
        cases hx : r.state with
        | online o s c => exact ⟨o, s, c, rfl⟩
        | _ => exact absurd (.inl (by simp [hx])) hst
      obtain ⟨otp, sent, recv, hs⟩ := hol
      obtain ⟨e1, d1, otp1, ro, ho, hf⟩ := flush_online (k := k) (peer := peer) (d := d) hw hs hl
      rcases hf with ⟨e, hlate, hf⟩ | ⟨hf, hau⟩
      · rw [hf]; exact ⟨fun op ho => hb op (List.mem_of_mem_drop ho), hd, by simp⟩
      · rw [hf]
        refine ⟨fun op ho => hb op (List.mem_of_mem_drop ho), fun p hp hpt => ?_, by simp⟩
        rcases List.mem_append.1 hp with hp | hp
        · exact hd p hp hpt
        · obtain ⟨op, ho, rfl⟩ := List.mem_map.1 hp
          exact ⟨op.toReceiving, hb op (List.mem_of_mem_take ho), hau hr op ho, by rw [hr]⟩

theorem auth_run {k : SessionFns} {peer : Nat → Bytes} (cs : List RlCall) {r : RecordLayer} {n m : Nat}
    {I : List Receiving} (hw : r.Wf n m) (hn : n + cs.length ≤ 2 ^ 64) (hm : m + cs.length ≤ 2 ^ 64)
    (hr : r.role = .leader) (hb : ∀ op ∈ r.decryptBuffer, op.toReceiving ∈ I)
    (hd : ∀ p ∈ r.decryptedBuffer, p.typ = .applicationData → FromAuthentic k.server .leader I p)
    (hi : ∀ s ∈ incoming m (r.history k peer cs), s ∈ I) :
    ∀ p ∈ delivered (r.history k peer cs), p.typ = .applicationData →
      FromAuthentic k.server .leader I p := by
  induction cs generalizing r n m with
  | nil => simp [RecordLayer.history, delivered]
  | cons c cs ih =>
    simp only [List.length_cons] at hn hm
    rw [history_cons, incoming_cons] at hi
    have hs := step_ok (k := k) (peer := peer) hw (by omega) (by omega) c
    have hle := nextW_le n (c, (r.step k peer c).2)
    have hle' := nextR_le m (c, (r.step k peer c).2)
    have h1 := auth_step (k := k) (peer := peer) hw (by omega) hr hb hd c
      (fun s hs => hi s (List.mem_append_left _ hs))
    have h2 := ih hs.wf (by omega) (by omega) (hs.role.trans hr) h1.1 h1.2.1
      (fun s hs => hi s (List.mem_append_right _ hs))
    intro p hp
    rw [history_cons, delivered_cons] at hp
    rcases List.mem_append.1 hp with hp | hp
    · exact h1.2.2 p hp
    · exact h2 p hp

/-- **C57** Every application data record the leader delivers, before or after `commit`, comes from a
record it was given whose AES-GCM tag is right for its position, type, version and length. -/
theorem C57_leader_authentic (k : SessionFns) (peer : Nat → Bytes) (otp : Bytes)
    (sentRecords recvRecords sentLen recvLenOnline recvLen : Nat) (calls : List RlCall)
    (hc : calls.length ≤ 2 ^ 64) :
    let r := RecordLayer.online .leader otp sentRecords recvRecords sentLen recvLenOnline recvLen
    let h := r.history k peer calls
    ∀ p ∈ delivered h, p.typ = .applicationData →
      ∃ s ∈ incoming 0 h, s.Authentic k.server ∧ p.typ = s.typ ∧ p.version = s.version ∧
        p.plaintext = some (xorBytes s.ciphertext (k.server.keystream s.nonce s.ciphertext.length)) := by
  intro r h p hp hpt
  obtain ⟨s, hs, ha, rfl⟩ := auth_run (k := k) (peer := peer) calls (I := incoming 0 h)
    (online_wf .leader otp sentRecords recvRecords sentLen recvLenOnline recvLen) (by omega) (by omega) rfl
    (by simp [RecordLayer.online]) (by simp [RecordLayer.online]) (fun s hs => hs) p hp hpt
  exact ⟨s, hs, ha, rfl, rfl, by simp [Receiving.plain, Receiving.plaintext]⟩

/-! ## Witnesses -/

/-- Keys for the examples: the block with counter `c` consists of bytes `c`, GHASH is constant. -/
def demoFns : SessionFns :=
  ⟨⟨fun _ c => Vector.replicate 16 (UInt8.ofNat c), fun _ => Vector.replicate 16 7⟩,
   ⟨fun _ c => Vector.replicate 16 (UInt8.ofNat c), fun _ => Vector.replicate 16 9⟩⟩

/-- Nothing goes wrong. -/
def goodEnv : FlushEnv := ⟨true, true⟩

/-- A history without failures. -/
def demoCalls : List RlCall :=
  [.pushEncrypt .handshake .tls12 3 (some [1, 2, 3]),
   .pushDecrypt .handshake .tls12 (beBytes 8 77) [3, 1] (List.replicate 16 8),
   .pushDecrypt .applicationData .tls12 (beBytes 8 78) [5] (List.replicate 16 8),
   .flush goodEnv false, .nextEncrypted, .nextDecrypted,
   .pushEncrypt .applicationData .tls12 2 (some [9, 9]), .flush goodEnv true, .nextEncrypted, .startTraffic,
   .nextEncrypted, .nextDecrypted]

/-- Example for C27, C28, C29 and C57: a history in which nothing fails, application data waits for
`start_traffic`, and everything comes out. -/
example :
    let r := RecordLayer.online .leader (List.replicate 40 1) 5 5 40 40 80
    let h := r.history demoFns (fun _ => []) demoCalls
    h.map (·.2) = [.done, .done, .done, .done,
      .encrypted (some ⟨.handshake, .tls12, beBytes 8 0, [3, 0, 1], some (List.replicate 16 6)⟩),
      .decrypted (some ⟨.handshake, .tls12, some [1, 3]⟩), .done, .done, .encrypted none, .done,
      .encrypted (some ⟨.applicationData, .tls12, beBytes 8 1, [11, 11], some (List.replicate 16 6)⟩),
      .decrypted (some ⟨.applicationData, .tls12, some [7]⟩)] ∧
    (∀ x ∈ h, lossless x = true) ∧ (r.run demoFns (fun _ => []) demoCalls).1.encrypter.assigned ≠ [] := by
  decide +kernel

/-- Example for C29 and C27: the commit after this history. -/
example :
    let r := RecordLayer.online .follower [] 5 5 40 40 80
    let calls : List RlCall := [.pushEncrypt .applicationData .tls12 2 none, .flush goodEnv false,
      .pushDecrypt .applicationData .tls12 (beBytes 8 78) [5] (List.replicate 16 8)]
    ((r.run demoFns (fun _ => [9, 9]) calls).1.commit demoFns goodEnv).2 =
      .ok ([⟨0, .applicationData, none, beBytes 8 0, [11, 11], none⟩],
        [⟨0, .applicationData, none, beBytes 8 78, [5], some (List.replicate 16 8)⟩]) := by
  decide +kernel

/-- **C28**, what is missing: the lengths that the follower gets from the leader are not lengths of
vectors.  In a release build the sum wraps, so that records of more bytes than configured are accepted;
the count of sent bytes starts again. -/
theorem C28_limit_wraps :
    ∃ calls : List RlCall,
      let r := RecordLayer.online .follower [] 5 5 100 100 100
      let h := r.history demoFns (fun _ => []) calls
      h.map (·.2) = [.done, .done, .done] ∧ ((accepted 0 h).map (·.len)).sum > 2 ^ 64 := by
  exact ⟨[.pushEncrypt .applicationData .tls12 16 none, .pushEncrypt .applicationData .tls12 (2 ^ 64 - 16) none,
    .pushEncrypt .applicationData .tls12 100 none], by decide +kernel⟩

/-- **C28** Records within the configured number of bytes need not be encryptable: every record uses whole
blocks, so three records of one byte exceed the material allocated for 32 bytes. -/
theorem C28_small_records_exhaust :
    let r := RecordLayer.online .leader [] 5 5 32 32 32
    let h := r.history demoFns (fun _ => []) [.pushEncrypt .applicationData .tls12 1 (some [1]),
      .pushEncrypt .applicationData .tls12 1 (some [1]), .pushEncrypt .applicationData .tls12 1 (some [1]),
      .flush goodEnv false]
    h.map (·.2) = [.done, .done, .done, .failed .cipher] := by
  decide +kernel

/-- **C29** A flush that fails loses the records it took: a later flush and commit succeed without them.
The sequence number is used up. -/
theorem C29_failed_flush_loses :
    let r := RecordLayer.online .leader [] 5 5 32 32 32
    let h := r.history demoFns (fun _ => []) [.pushEncrypt .applicationData .tls12 1 (some [1]),
      .flush ⟨true, false⟩ false, .pushEncrypt .applicationData .tls12 1 (some [2]), .flush goodEnv false,
      .commit goodEnv]
    h.map (·.2) = [.done, .failed .mpc, .done, .done,
      .committed [⟨1, .applicationData, some [2], beBytes 8 1, [0], some (List.replicate 16 6)⟩] []] := by
  decide +kernel

/-- **C29** A push whose plaintext does not fit uses up a sequence number and bytes, so the next record
does not have the number the server expects. -/
theorem C29_rejected_push_skips :
    let r := RecordLayer.online .leader [] 5 5 32 32 32
    let h := r.history demoFns (fun _ => []) [.pushEncrypt .handshake .tls12 1 none,
      .pushEncrypt .handshake .tls12 1 (some [2]), .flush goodEnv false, .nextEncrypted]
    h.map (·.2) = [.failed .plaintext, .done, .done,
      .encrypted (some ⟨.handshake, .tls12, beBytes 8 1, [0], some (List.replicate 16 6)⟩)] := by
  decide +kernel

/-- **C57**, what is missing: records other than application data that are still waiting at `commit` are
decrypted without a check of their tag, also by the leader. -/
theorem C57_commit_public_unchecked :
    let r := RecordLayer.online .leader [] 5 5 32 32 32
    let h := r.history demoFns (fun _ => []) [.pushDecrypt .alert .tls12 (beBytes 8 0) [1, 0] [0xde, 0xad],
      .commit goodEnv, .nextDecrypted]
    h.map (·.2) = [.done,
      .committed [] [⟨0, .alert, some [3, 2], beBytes 8 0, [1, 0], some [0xde, 0xad]⟩],
      .decrypted (some ⟨.alert, .tls12, some [3, 2]⟩)] ∧
    ∀ s ∈ incoming 0 h, ¬ s.Authentic demoFns.server := by
  constructor
  · decide +kernel
  · have : incoming 0 ((RecordLayer.online .leader [] 5 5 32 32 32).history demoFns (fun _ => [])
        [.pushDecrypt .alert .tls12 (beBytes 8 0) [1, 0] [0xde, 0xad], .commit goodEnv, .nextDecrypted]) =
        [⟨0, .alert, .tls12, beBytes 8 0, [1, 0], [0xde, 0xad]⟩] := by decide +kernel
    rw [this]
    simp only [List.mem_singleton, forall_eq, Receiving.Authentic]
    decide +kernel

/-- **C27**, what is missing for the receiving direction: the explicit nonces of received records are not
compared, so that two records with the same nonce are decrypted with the same keystream. -/
theorem C27_received_nonce_repeats :
    let r := RecordLayer.online .leader (List.replicate 32 0) 5 5 32 32 32
    let calls : List RlCall := [
      .pushDecrypt .applicationData .tls12 (beBytes 8 0) [5] (List.replicate 16 8),
      .pushDecrypt .applicationData .tls12 (beBytes 8 0) [6] (List.replicate 16 8), .flush goodEnv true]
    (r.run demoFns (fun _ => []) calls).2 = [.done, .done, .done] ∧
    ¬ ((r.run demoFns (fun _ => []) calls).1.decrypter.assigned.map fun u => (u.2.1, u.2.2)).Nodup := by
  decide +kernel

theorem applyKeystream_zero (a : Aead) (nonce : Bytes) : (a.applyKeystream nonce 0).2 ≠ .ok () := by
  have h0 : divCeil16 0 * 16 % 2 ^ 64 = 0 := rfl
  simp only [Aead.applyKeystream, h0]
  split
  · simp
  · simp only [Nat.not_lt_zero, gt_iff_lt, if_false]
    split
    · simp
    · rename_i rest got hg
      have := (C46_consume _ _).2 rest got hg
      have h0 : got.blocks = [] := List.length_eq_zero_iff.1 (by omega)
      simp [h0]

theorem takeKeystream_zero (a : Aead) (nonce : Bytes) : (a.takeKeystream nonce 0).2 ≠ .ok () := by
  simp only [Aead.takeKeystream]
  split
  · simp
  · split
    · simp
    · split
      · simp
      · simp

theorem encryptOps_zero (ops : List EncryptOp) (a : Aead) (h : ∃ op ∈ ops, op.len = 0) :
    (a.encryptOps ops).2 ≠ .ok () := by
  induction ops generalizing a with
  | nil => simp at h
  | cons op ops ih =>
    simp only [Aead.encryptOps]
    split
    · rename_i a1 he
      by_cases h0 : op.len = 0
      · exfalso
        simp only [Aead.encryptOp, h0] at he
        split at he
        · exact applyKeystream_zero a op.nonce (by rw [he])
        · split at he
          · simp at he
          · exact takeKeystream_zero a op.nonce (by rw [he])
      · refine ih a1 ?_
        obtain ⟨op', ho, hz⟩ := h
        rcases List.mem_cons.1 ho with rfl | ho
        · exact absurd hz h0
        · exact ⟨op', ho, hz⟩
    · simp

/-- **C29** An empty record cannot be encrypted: it is accepted, but every flush that takes it fails, and
takes all records waiting with it. -/
theorem C29_empty_record_fails (k : SessionFns) (peer : Nat → Bytes) (env : FlushEnv) (r : RecordLayer)
    (d : Bool) (h : ∃ op ∈ r.encryptBuffer, op.len = 0) : (r.flush k peer env d).2 ≠ .ok () := by
  rcases flush_frame k peer env r d with ⟨e, hf⟩ | ⟨e1, d1, ro, eb, db, st, x, hf, -, hx, -⟩
  · rw [hf]; simp
  · rw [hf]
    rintro rfl
    have := (hx rfl).2
    simp only [Aead.encryptAll] at this
    split at this
    · simp at this
    · rename_i a1 he
      exact encryptOps_zero r.encryptBuffer r.encrypter h (by rw [he])

/-- Example for `C29_empty_record_fails`: an empty record is accepted. -/
example :
    let r := RecordLayer.online .leader [] 5 5 32 32 32
    (r.pushEncrypt .applicationData .tls12 0 (some [])).2.isOk = true ∧
    ∃ op ∈ (r.pushEncrypt .applicationData .tls12 0 (some [])).1.encryptBuffer, op.len = 0 := by
  decide +kernel

end Tlsn
