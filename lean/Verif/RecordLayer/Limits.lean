import Verif.RecordLayer.Nonces

/-! # C28: traffic limits -/

namespace Tlsn

/-- A call whose lengths are lengths of byte vectors, which never exceed `isize::MAX`. -/
def VecSized : RlCall → Prop
  | .pushEncrypt _ _ l _ => l < 2 ^ 63
  | .pushDecrypt _ _ _ ct _ => ct.length < 2 ^ 63
  | _ => True

/-- The number of application data bytes in decrypted records. -/
def appBytes (l : List PlainRecord) : Nat :=
  (l.map fun p => if p.typ = .applicationData then (p.plaintext.getD []).length else 0).sum

theorem usizeAdd_small {a b : Nat} (ha : a < 2 ^ 63) (hb : b < 2 ^ 63) : usizeAdd a b = a + b := by
  simp only [usizeAdd]; omega

theorem appBytes_append (a b : List PlainRecord) : appBytes (a ++ b) = appBytes a + appBytes b := by
  simp [appBytes]

/-- The bytes accepted for sending and receiving. -/
def sentBytes (l : List Sending) : Nat := (l.map (·.len)).sum
def recvBytes (l : List Receiving) : Nat := (l.map (·.ciphertext.length)).sum

/-- The invariant behind C28. -/
structure LimitInv (r : RecordLayer) (s v d : Nat) : Prop where
  sent : s ≤ r.sent
  sentMax : r.sent ≤ r.maxSent
  recv : v ≤ r.recv
  recvMax : r.recv ≤ r.maxRecv
  pending : (r.decryptBuffer.map (·.ciphertext.length)).sum ≤ r.recv
  online : d + appBytes r.decryptedBuffer ≤ r.recvOnline
  onlineMax : r.recvOnline ≤ r.maxRecvOnline
  small : r.maxSent < 2 ^ 63 ∧ r.maxRecv < 2 ^ 63 ∧ r.maxRecvOnline < 2 ^ 63

theorem take_firstAppData (ops : List DecryptOp) :
    ∀ op ∈ ops.take (firstAppData ops), op.typ ≠ .applicationData := by
  induction ops with
  | nil => simp
  | cons o ops ih =>
    by_cases h : o.typ = .applicationData
    · simp [firstAppData, List.findIdx_cons, h]
    · intro op ho
      simp only [firstAppData, List.findIdx_cons, h, decide_false, cond_false, List.take_succ_cons,
        List.mem_cons] at ho
      rcases ho with rfl | ho
      · exact h
      · exact ih op ho

theorem plaintext_length_le (f : AeadFn) (role : Role) (s : Receiving) :
    ((s.plaintext f role).getD []).length ≤ s.ciphertext.length := by
  simp only [Receiving.plaintext]
  split
  · simp [xorBytes_length]
  · simp

theorem appBytes_plain_le (f : AeadFn) (role : Role) (ops : List DecryptOp) :
    appBytes (ops.map fun op => op.toReceiving.plain f role) ≤ (ops.map (·.ciphertext.length)).sum := by
  induction ops with
  | nil => simp [appBytes]
  | cons o ops ih =>
    simp only [appBytes, List.map_cons, List.sum_cons] at ih ⊢
    refine Nat.add_le_add ?_ ih
    split
    · exact plaintext_length_le f role o.toReceiving
    · omega

theorem appBytes_pub (f : AeadFn) (role : Role) (ops : List DecryptOp)
    (h : ∀ op ∈ ops, op.typ ≠ .applicationData) :
    appBytes (ops.map fun op => op.toReceiving.plain f role) = 0 := by
  induction ops with
  | nil => simp [appBytes]
  | cons o ops ih =>
    simp only [appBytes, List.map_cons, List.sum_cons] at ih ⊢
    rw [ih fun op ho => h op (List.mem_cons_of_mem _ ho)]
    have := h o (by simp)
    simp [Receiving.plain, DecryptOp.toReceiving, this]

theorem sum_take_drop (l : List DecryptOp) (n : Nat) :
    ((l.take n).map (·.ciphertext.length)).sum + ((l.drop n).map (·.ciphertext.length)).sum =
      (l.map (·.ciphertext.length)).sum := by
  rw [← List.sum_append, ← List.map_append, List.take_append_drop]

/-- What a flush does to the count of bytes decrypted online. -/
theorem flush_online_count {k : SessionFns} {peer : Nat → Bytes} {env : FlushEnv} {r : RecordLayer} {d : Bool}
    (hm : r.recvOnline ≤ r.maxRecvOnline) (hs : r.recvOnline < 2 ^ 63)
    (hp : (r.decryptBuffer.map (·.ciphertext.length)).sum < 2 ^ 63) :
    r.recvOnline ≤ (r.flush k peer env d).1.recvOnline ∧
    (r.flush k peer env d).1.recvOnline ≤ r.maxRecvOnline ∧
    (d = true → (r.flush k peer env d).2 = .ok () →
      (r.flush k peer env d).1.recvOnline =
        r.recvOnline + ((r.decryptBuffer.take (r.flushPos d)).map (·.ciphertext.length)).sum) := by
  have hsum := sum_take_drop r.decryptBuffer (r.flushPos d)
  have hadd : usizeAdd r.recvOnline ((r.decryptBuffer.take (r.flushPos d)).map (·.ciphertext.length)).sum =
      r.recvOnline + ((r.decryptBuffer.take (r.flushPos d)).map (·.ciphertext.length)).sum :=
    usizeAdd_small hs (by omega)
  have hgen : ∀ (r2 : RecordLayer) o s c eo do',
      (r2.flushRun k peer env o s c eo do').1.recvOnline = r2.recvOnline := by
    intro r2 o s c eo do'
    simp only [RecordLayer.flushRun]
    repeat' split
    all_goals rfl
  have hpos : (if d = true then r.decryptBuffer.length else firstAppData r.decryptBuffer) = r.flushPos d := rfl
  simp only [RecordLayer.flush, hpos, hadd]
  split
  · split
    · exact ⟨Nat.le_refl _, hm, fun _ h => by simp at h⟩
    · split
      · rename_i hemp
        simp only [Bool.and_eq_true, List.isEmpty_iff] at hemp
        refine ⟨Nat.le_refl _, hm, fun _ _ => ?_⟩
        rw [hemp.2]; simp
      · split
        · exact ⟨Nat.le_refl _, hm, fun _ h => by simp at h⟩
        · rename_i hlim
          rw [hgen]
          cases d
          · exact ⟨Nat.le_refl _, hm, by simp⟩
          · simp only [Bool.true_and, decide_eq_true_eq] at hlim
            exact ⟨by simp only [if_true]; omega, by simp only [if_true]; omega, fun _ _ => rfl⟩
  · exact ⟨Nat.le_refl _, hm, fun _ h => by simp at h⟩

theorem LimitInv.frame {r r' : RecordLayer} {s v d : Nat} (h : LimitInv r s v d)
    (h1 : r'.sent = r.sent) (h2 : r'.maxSent = r.maxSent) (h3 : r'.recv = r.recv) (h4 : r'.maxRecv = r.maxRecv)
    (h5 : r'.decryptBuffer = r.decryptBuffer) (h6 : r'.decryptedBuffer = r.decryptedBuffer)
    (h7 : r'.recvOnline = r.recvOnline) (h8 : r'.maxRecvOnline = r.maxRecvOnline) : LimitInv r' s v d :=
  ⟨by rw [h1]; exact h.sent, by rw [h1, h2]; exact h.sentMax, by rw [h3]; exact h.recv,
    by rw [h3, h4]; exact h.recvMax, by rw [h3, h5]; exact h.pending, by rw [h6, h7]; exact h.online,
    by rw [h7, h8]; exact h.onlineMax, by rw [h2, h4, h8]; exact h.small⟩

theorem limitInv_step {k : SessionFns} {peer : Nat → Bytes} {r : RecordLayer} {n m s v d : Nat}
    (hw : r.Wf n m) (h : LimitInv r s v d) (c : RlCall) (hc : VecSized c) (hnc : ∀ env, c ≠ .commit env) :
    LimitInv (r.step k peer c).1 (s + sentBytes (accepted n [(c, (r.step k peer c).2)]))
      (v + recvBytes (incoming m [(c, (r.step k peer c).2)]))
      (d + appBytes (delivered [(c, (r.step k peer c).2)])) := by
  have hsm := h.small
  cases c with
  | commit env => exact absurd rfl (hnc env)
  | startTraffic => exact h.frame rfl rfl rfl rfl rfl rfl rfl rfl
  | nextEncrypted =>
    simp only [RecordLayer.step, RecordLayer.nextEncrypted]
    split
    · exact h
    · split
      · exact h
      · exact h.frame rfl rfl rfl rfl rfl rfl rfl rfl
  | nextDecrypted =>
    simp only [RecordLayer.step, RecordLayer.nextDecrypted]
    split
    · exact h
    · rename_i x rest hx
      split
      · exact h
      · refine ⟨h.sent, h.sentMax, h.recv, h.recvMax, h.pending, ?_, h.onlineMax, h.small⟩
        have := h.online
        rw [hx] at this
        change d + appBytes [x] + appBytes rest ≤ r.recvOnline
        rw [show x :: rest = [x] ++ rest from rfl, appBytes_append] at this
        omega
  | pushEncrypt t v' l p =>
    simp only [VecSized] at hc
    simp only [RecordLayer.step, RecordLayer.pushEncrypt]
    split
    · exact h
    · split
      · exact h
      · rename_i hlim
        have hs := h.sent
        have hsM := h.sentMax
        have hadd : usizeAdd r.sent l = r.sent + l := usizeAdd_small (by omega) hc
        rw [hadd] at hlim
        split
        · rename_i e he
          have : e = .plaintext := by
            simp only [EncryptOp.new] at he
            split at he
            · simp only [Except.error.injEq] at he; exact he.symm
            · split at he
              · simp only [Except.error.injEq] at he; exact he.symm
              · simp at he
          subst this
          refine ⟨?_, ?_, h.recv, h.recvMax, h.pending, h.online, h.onlineMax, h.small⟩
          · change s + 0 ≤ usizeAdd r.sent l; omega
          · change usizeAdd r.sent l ≤ r.maxSent; omega
        · refine ⟨?_, ?_, h.recv, h.recvMax, h.pending, h.online, h.onlineMax, h.small⟩
          · change s + (l + 0) ≤ usizeAdd r.sent l; omega
          · change usizeAdd r.sent l ≤ r.maxSent; omega
  | pushDecrypt t v' nc ct tg =>
    simp only [VecSized] at hc
    simp only [RecordLayer.step, RecordLayer.pushDecrypt]
    split
    · exact h
    · split
      · exact h
      · rename_i hlim
        have hs := h.recv
        have hsM := h.recvMax
        have hp := h.pending
        have hadd : usizeAdd r.recv ct.length = r.recv + ct.length := usizeAdd_small (by omega) hc
        rw [hadd] at hlim
        refine ⟨h.sent, h.sentMax, ?_, ?_, ?_, h.online, h.onlineMax, h.small⟩
        · change v + (ct.length + 0) ≤ usizeAdd r.recv ct.length; omega
        · change usizeAdd r.recv ct.length ≤ r.maxRecv; omega
        · change ((r.decryptBuffer ++ [_]).map _).sum ≤ usizeAdd r.recv ct.length
          rw [hadd, List.map_append, List.sum_append]
          simp only [List.map_cons, List.map_nil, List.sum_cons, List.sum_nil]
          omega
  | flush env dd =>
    have hcount := flush_online_count (k := k) (peer := peer) (env := env) (d := dd) h.onlineMax
      (by have := h.onlineMax; omega) (by have := h.pending; have := h.recvMax; omega)
    have hdel : ∀ x, delivered [(RlCall.flush env dd, RlResult.ofExcept x)] = [] := by
      intro x; cases x <;> rfl
    have hacc : ∀ x, accepted n [(RlCall.flush env dd, x)] = [] := by intro x; cases x <;> rfl
    have hinc : ∀ x, incoming m [(RlCall.flush env dd, x)] = [] := by intro x; cases x <;> rfl
    simp only [RecordLayer.step]
    rw [hdel, hacc, hinc]
    change LimitInv (r.flush k peer env dd).1 s v d
    by_cases hst : (∀ otp s c, r.state ≠ .online otp s c) ∨ env.locksFree = false
    · obtain ⟨e, he, hf⟩ := flush_not_started (k := k) (peer := peer) (d := dd) hst
      rw [hf]; exact h
    · have hl : env.locksFree = true := by
        cases hx : env.locksFree
        · exact absurd (.inr hx) hst
        · rfl
      have hol : ∃ otp s c, r.state = .online otp s c := by
        cases hx : r.state with
        | online o s c => exact ⟨o, s, c, rfl⟩
        | _ => exact absurd (.inl (by simp [hx])) hst
      obtain ⟨otp, sent, recv, hs⟩ := hol
      obtain ⟨e1, d1, otp1, ro, ho, hf⟩ := flush_online (k := k) (peer := peer) (d := dd) hw hs hl
      have hsum := sum_take_drop r.decryptBuffer (r.flushPos dd)
      have hpd := h.pending
      have hon := h.online
      rcases hf with ⟨e, hlate, hf⟩ | ⟨hf, -⟩
      · rw [hf] at hcount ⊢
        refine ⟨h.sent, h.sentMax, h.recv, h.recvMax, ?_, ?_, hcount.2.1, h.small⟩
        · change ((r.decryptBuffer.drop (r.flushPos dd)).map _).sum ≤ r.recv; omega
        · change d + appBytes r.decryptedBuffer ≤ ro
          have := hcount.1
          change r.recvOnline ≤ ro at this
          omega
      · rw [hf] at hcount ⊢
        refine ⟨h.sent, h.sentMax, h.recv, h.recvMax, ?_, ?_, hcount.2.1, h.small⟩
        · change ((r.decryptBuffer.drop (r.flushPos dd)).map _).sum ≤ r.recv; omega
        · change d + appBytes (r.decryptedBuffer ++ _) ≤ ro
          rw [appBytes_append]
          cases dd with
          | true =>
            have h3 := hcount.2.2 rfl rfl
            change ro = _ at h3
            have := appBytes_plain_le k.server r.role (r.decryptBuffer.take (r.flushPos true))
            omega
          | false =>
            have h3 := hcount.1
            change r.recvOnline ≤ ro at h3
            have := appBytes_pub k.server r.role (r.decryptBuffer.take (r.flushPos false))
              (take_firstAppData r.decryptBuffer)
            omega

theorem sentBytes_append (a b : List Sending) : sentBytes (a ++ b) = sentBytes a + sentBytes b := by
  simp [sentBytes]

theorem recvBytes_append (a b : List Receiving) : recvBytes (a ++ b) = recvBytes a + recvBytes b := by
  simp [recvBytes]

theorem limitInv_run {k : SessionFns} {peer : Nat → Bytes} (cs : List RlCall) {r : RecordLayer}
    {n m s v d : Nat} (hw : r.Wf n m) (hn : n + cs.length ≤ 2 ^ 64) (hm : m + cs.length ≤ 2 ^ 64)
    (h : LimitInv r s v d) (hc : ∀ c ∈ cs, VecSized c) (hnc : ∀ env, .commit env ∉ cs) :
    LimitInv (r.run k peer cs).1 (s + sentBytes (accepted n (r.history k peer cs)))
      (v + recvBytes (incoming m (r.history k peer cs))) (d + appBytes (delivered (r.history k peer cs))) := by
  induction cs generalizing r n m s v d with
  | nil => exact h
  | cons c cs ih =>
    simp only [List.length_cons] at hn hm
    have h1 := limitInv_step (k := k) (peer := peer) hw h c (hc c (by simp))
      (fun env he => hnc env (by simp [he]))
    have hs := step_ok (k := k) (peer := peer) hw (by omega) (by omega) c
    have hle := nextW_le n (c, (r.step k peer c).2)
    have hle' := nextR_le m (c, (r.step k peer c).2)
    have h2 := ih hs.wf (by omega) (by omega) h1 (fun c hc' => hc c (List.mem_cons_of_mem _ hc'))
      (fun env he => hnc env (List.mem_cons_of_mem _ he))
    rw [history_cons, accepted_cons, incoming_cons, delivered_cons, sentBytes_append, recvBytes_append,
      appBytes_append, ← Nat.add_assoc, ← Nat.add_assoc, ← Nat.add_assoc]
    exact h2

/-- **C28** Whatever happens before `commit`, the lengths accepted by `push_encrypt` add up to at most the
configured number of sent bytes, those accepted by `push_decrypt` to at most the configured number of
received bytes, and the application data delivered to at most the configured number of bytes received
online.  Missing: lengths of 2^63 and more, which the follower takes from the leader's message and for which
the sums wrap (`C28_limit_wraps`). -/
theorem C28_limits_partial (k : SessionFns) (peer : Nat → Bytes) (role : Role) (otp : Bytes)
    (sentRecords recvRecords sentLen recvLenOnline recvLen : Nat) (calls : List RlCall)
    (hc : calls.length ≤ 2 ^ 64) (hv : ∀ c ∈ calls, VecSized c)
    (hs : sentLen < 2 ^ 63 ∧ recvLenOnline < 2 ^ 63 ∧ recvLen < 2 ^ 63) (hnc : ∀ env, .commit env ∉ calls) :
    let r := RecordLayer.online role otp sentRecords recvRecords sentLen recvLenOnline recvLen
    let h := r.history k peer calls
    ((accepted 0 h).map (·.len)).sum ≤ sentLen ∧
    ((incoming 0 h).map (·.ciphertext.length)).sum ≤ recvLen ∧
    appBytes (delivered h) ≤ recvLenOnline := by
  intro r h
  have h0 : LimitInv r 0 0 0 := ⟨Nat.le_refl _, Nat.zero_le _, Nat.le_refl _, Nat.zero_le _, by
    simp [r, RecordLayer.online], by simp [r, RecordLayer.online, appBytes], Nat.zero_le _,
    hs.1, hs.2.2, hs.2.1⟩
  have hfin := limitInv_run (k := k) (peer := peer) calls (online_wf role otp sentRecords recvRecords sentLen
    recvLenOnline recvLen) (by omega) (by omega) h0 hv hnc
  have hmax : ∀ (cs : List RlCall) (r : RecordLayer), (r.run k peer cs).1.maxSent = r.maxSent ∧
      (r.run k peer cs).1.maxRecv = r.maxRecv ∧ (r.run k peer cs).1.maxRecvOnline = r.maxRecvOnline := by
    intro cs
    induction cs with
    | nil => intro r; exact ⟨rfl, rfl, rfl⟩
    | cons c cs ih =>
      intro r
      have h1 := ih (r.step k peer c).1
      have h2 : (r.step k peer c).1.maxSent = r.maxSent ∧ (r.step k peer c).1.maxRecv = r.maxRecv ∧
          (r.step k peer c).1.maxRecvOnline = r.maxRecvOnline := by
        cases c with
        | startTraffic => exact ⟨rfl, rfl, rfl⟩
        | pushEncrypt t v l p =>
          simp only [RecordLayer.step, RecordLayer.pushEncrypt]
          repeat' split
          all_goals exact ⟨rfl, rfl, rfl⟩
        | pushDecrypt t v nc ct tg =>
          simp only [RecordLayer.step, RecordLayer.pushDecrypt]
          repeat' split
          all_goals exact ⟨rfl, rfl, rfl⟩
        | nextEncrypted =>
          simp only [RecordLayer.step, RecordLayer.nextEncrypted]
          repeat' split
          all_goals exact ⟨rfl, rfl, rfl⟩
        | nextDecrypted =>
          simp only [RecordLayer.step, RecordLayer.nextDecrypted]
          repeat' split
          all_goals exact ⟨rfl, rfl, rfl⟩
        | commit env =>
          simp only [RecordLayer.step, RecordLayer.commit]
          repeat' split
          all_goals exact ⟨rfl, rfl, rfl⟩
        | flush env d =>
          simp only [RecordLayer.step]
          rcases flush_frame k peer env r d with ⟨e, hf⟩ | ⟨e1, d1, ro, eb, db, st, x, hf, -⟩
          · rw [hf]; exact ⟨rfl, rfl, rfl⟩
          · rw [hf]; exact ⟨rfl, rfl, rfl⟩
      exact ⟨h1.1.trans h2.1, h1.2.1.trans h2.2.1, h1.2.2.trans h2.2.2⟩
  have hm := hmax calls r
  have a := hfin.sent; have a' := hfin.sentMax
  have b := hfin.recv; have b' := hfin.recvMax
  have c := hfin.online; have c' := hfin.onlineMax
  change 0 + sentBytes (accepted 0 h) ≤ (r.run k peer calls).1.sent at a
  change 0 + recvBytes (incoming 0 h) ≤ (r.run k peer calls).1.recv at b
  change 0 + appBytes (delivered h) + _ ≤ (r.run k peer calls).1.recvOnline at c
  change (r.run k peer calls).1.sent ≤ (r.run k peer calls).1.maxSent at a'
  change (r.run k peer calls).1.recv ≤ (r.run k peer calls).1.maxRecv at b'
  change (r.run k peer calls).1.recvOnline ≤ (r.run k peer calls).1.maxRecvOnline at c'
  rw [hm.1] at a'
  rw [hm.2.1] at b'
  rw [hm.2.2] at c'
  change _ ≤ sentLen at a'
  change _ ≤ recvLen at b'
  change _ ≤ recvLenOnline at c'
  have e1 : ((accepted 0 h).map (·.len)).sum = sentBytes (accepted 0 h) := rfl
  have e2 : ((incoming 0 h).map (·.ciphertext.length)).sum = recvBytes (incoming 0 h) := rfl
  rw [e1, e2]
  omega

end Tlsn
