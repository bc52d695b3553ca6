import Verif.RecordLayer.Spec

/-! # Lemmas about the record layer -/

namespace Tlsn

theorem divCeil16_le (n : Nat) : n ≤ 16 * divCeil16 n := by simp only [divCeil16]; omega

theorem flatMap_block_length (f : Nat → Vector Byte 16) (n : Nat) :
    ((List.range n).flatMap fun i => (f i).toList).length = 16 * n := by
  induction n with
  | zero => simp
  | succ n ih => simp [List.range_succ, List.flatMap_append, ih]; omega

@[simp] theorem keystream_length (f : AeadFn) (nonce : Bytes) (len : Nat) :
    (f.keystream nonce len).length = len := by
  have h := flatMap_block_length (fun i => f.block nonce (2 + i)) (divCeil16 len)
  have := divCeil16_le len
  rw [AeadFn.keystream, List.length_take, h]; omega

/-- The record an encryption operation stands for. -/
def EncryptOp.toSending (op : EncryptOp) : Sending := ⟨op.seq, op.typ, op.version, op.len, op.plaintext⟩

/-- The record a decryption operation stands for. -/
def DecryptOp.toReceiving (op : DecryptOp) : Receiving :=
  ⟨op.seq, op.typ, op.version, op.nonce, op.ciphertext, op.tag⟩

/-- An encryption operation as `push_encrypt` makes it. -/
structure EncryptOp.Wf (op : EncryptOp) : Prop where
  nonce : op.nonce = beBytes 8 op.seq
  aad : op.aad = makeTls12Aad op.seq op.typ op.version op.len
  mode : op.mode = modeOf op.typ
  plaintext : ∀ p, op.plaintext = some p → p.length = op.len
  pub : op.typ ≠ .applicationData → op.plaintext ≠ none

/-- A decryption operation as `push_decrypt` makes it. -/
structure DecryptOp.Wf (op : DecryptOp) : Prop where
  aad : op.aad = makeTls12Aad op.seq op.typ op.version op.ciphertext.length
  mode : op.mode = modeOf op.typ

theorem EncryptOp.Wf.encrypted {op : EncryptOp} (h : op.Wf) (f : AeadFn) (peer : Nat → Bytes) (role : Role) :
    op.encrypted f peer role = op.toSending.onWire f peer role := by
  simp [EncryptOp.encrypted, Sending.onWire, EncryptOp.tagFor, Sending.tag, EncryptOp.cipher,
    Sending.ciphertext, EncryptOp.input, Sending.content, Sending.nonce, EncryptOp.toSending, h.nonce, h.aad]

theorem EncryptOp.Wf.record {op : EncryptOp} (h : op.Wf) (f : AeadFn) (peer : Nat → Bytes) (role : Role) :
    op.record f peer role = op.toSending.inTranscript f peer role := by
  simp [EncryptOp.record, Sending.inTranscript, EncryptOp.tagFor, Sending.tag, EncryptOp.cipher,
    Sending.ciphertext, EncryptOp.input, Sending.content, Sending.nonce, EncryptOp.toSending, h.nonce, h.aad]

/-- What the party learns of a decryption operation. -/
def DecryptOp.learn (f : AeadFn) (role : Role) (op : DecryptOp) : Option Bytes :=
  op.toReceiving.plaintext f role

theorem decryptOpMpc_ok {f : AeadFn} {role : Role} {a a1 : Aead} {otp otp1 : Option Bytes} {op : DecryptOp}
    {p : Option Bytes} (hw : op.Wf) (ho : otp.isSome = true ↔ role = .leader)
    (h : decryptOpMpc f a otp op = (a1, otp1, .ok p)) :
    p = op.learn f role ∧ otp1.isSome = otp.isSome := by
  simp only [decryptOpMpc, hw.mode, modeOf] at h
  by_cases ht : op.typ = .applicationData
  · simp only [ht, if_true] at h
    cases otp with
    | none =>
      have hr : role ≠ .leader := by simpa using ho
      simp only [takeOtp] at h
      split at h
      · simp at h
      · simp only [Prod.mk.injEq, Except.ok.injEq] at h
        obtain ⟨-, rfl, rfl⟩ := h
        simp [decryptPrivate, DecryptOp.learn, Receiving.plaintext, DecryptOp.toReceiving, hr, ht]
    | some o =>
      have hr : role = .leader := by simpa using ho
      by_cases hl : op.ciphertext.length > o.length
      · simp [takeOtp, hl] at h
      · simp only [takeOtp, if_neg hl] at h
        split at h
        · simp at h
        · simp only [Prod.mk.injEq, Except.ok.injEq] at h
          obtain ⟨-, rfl, rfl⟩ := h
          refine ⟨?_, rfl⟩
          simp only [decryptPrivate, DecryptOp.learn, Receiving.plaintext, DecryptOp.toReceiving, hr,
            Option.map_some, true_or, if_true, Option.some.injEq]
          congr 1
          have hlen : (o.drop (o.length - op.ciphertext.length)).length = op.ciphertext.length := by
            rw [List.length_drop]; omega
          rw [xorBytes_comm _ (xorBytes _ _), xorBytes_comm _ (f.keystream _ _)]
          exact xorBytes_cancel _ _ (by rw [keystream_length, hlen]; exact Nat.le_refl _)
  · simp only [ht, if_false] at h
    split at h
    · simp at h
    · simp only [Prod.mk.injEq, Except.ok.injEq] at h
      obtain ⟨-, rfl, rfl⟩ := h
      simp [decryptPublic, DecryptOp.learn, Receiving.plaintext, DecryptOp.toReceiving, ht]

theorem decryptOpMpc_err {f : AeadFn} {a a1 : Aead} {otp otp1 : Option Bytes} {op : DecryptOp} {e : RlError}
    (h : decryptOpMpc f a otp op = (a1, otp1, .error e)) : otp1 = otp := by
  simp only [decryptOpMpc] at h
  split at h
  · split at h
    · simp only [Prod.mk.injEq] at h; exact h.2.1.symm
    · split at h
      · simp only [Prod.mk.injEq] at h; exact h.2.1.symm
      · simp at h
  · split at h
    · simp only [Prod.mk.injEq] at h; exact h.2.1.symm
    · simp at h

theorem decryptMpc_isSome {f : AeadFn} {role : Role} (ops : List DecryptOp) (hw : ∀ op ∈ ops, op.Wf)
    {a a1 : Aead} {otp otp1 : Option Bytes} {x : Except RlError (List (Option Bytes))}
    (ho : otp.isSome = true ↔ role = .leader) (h : decryptMpc f a otp ops = (a1, otp1, x)) :
    otp1.isSome = otp.isSome ∧ ∀ ps, x = .ok ps → ps = ops.map (·.learn f role) := by
  induction ops generalizing a otp a1 otp1 x with
  | nil =>
    simp only [decryptMpc, Prod.mk.injEq] at h
    obtain ⟨-, rfl, rfl⟩ := h
    simp
  | cons op ops ih =>
    simp only [decryptMpc] at h
    split at h
    · rename_i a2 otp2 e he
      simp only [Prod.mk.injEq] at h
      obtain ⟨-, rfl, rfl⟩ := h
      exact ⟨by rw [decryptOpMpc_err he], by simp⟩
    · rename_i a2 otp2 p hp
      have h1 := decryptOpMpc_ok (hw op (by simp)) ho hp
      have ho2 : otp2.isSome = true ↔ role = .leader := by rw [h1.2]; exact ho
      split at h
      · rename_i a3 otp3 e he
        have h2 := ih (fun o m => hw o (by simp [m])) ho2 he
        simp only [Prod.mk.injEq] at h
        obtain ⟨-, rfl, rfl⟩ := h
        exact ⟨h2.1.trans h1.2, by simp⟩
      · rename_i a3 otp3 ps he
        have h2 := ih (fun o m => hw o (by simp [m])) ho2 he
        simp only [Prod.mk.injEq] at h
        obtain ⟨-, rfl, rfl⟩ := h
        refine ⟨h2.1.trans h1.2, ?_⟩
        rintro _ ⟨⟩
        rw [h1.1, h2.2 ps rfl, List.map_cons]

theorem decryptLocal_ok {f : AeadFn} {role : Role} (ops : List DecryptOp) (hw : ∀ op ∈ ops, op.Wf)
    {a a1 : Aead} {ps : List (Option Bytes)} (h : decryptLocal f role a ops = (a1, .ok ps)) :
    ps = ops.map (·.learn f role) ∧
      (role = .leader → ∀ op ∈ ops, op.typ = .applicationData → op.toReceiving.Authentic f) := by
  induction ops generalizing a a1 ps with
  | nil =>
    simp only [decryptLocal, Prod.mk.injEq, Outcome.ok.injEq] at h
    obtain ⟨-, rfl⟩ := h
    simp
  | cons op ops ih =>
    simp only [decryptLocal] at h
    split at h
    · simp at h
    · simp at h
    · rename_i a2 p hp
      split at h
      · simp at h
      · simp at h
      · rename_i a3 ps' hps
        simp only [Prod.mk.injEq, Outcome.ok.injEq] at h
        obtain ⟨-, rfl⟩ := h
        have h2 := ih (fun o m => hw o (by simp [m])) hps
        have wf := hw op (by simp)
        have h1 : p = op.learn f role ∧
            (role = .leader → op.typ = .applicationData → op.toReceiving.Authentic f) := by
          simp only [decryptOpLocal, wf.mode, modeOf] at hp
          by_cases ht : op.typ = .applicationData
          · simp only [ht, if_true] at hp
            by_cases hr : role = .leader
            · simp only [hr, if_true, localDecrypt, Prod.mk.injEq] at hp
              by_cases hn : op.nonce.length ≠ 8 ∨ op.tag.length ≠ 16
              · simp [hn] at hp
              · by_cases hg : op.tag = f.tag op.nonce op.aad op.ciphertext
                · simp only [if_neg hn, if_pos hg, Outcome.ok.injEq] at hp
                  refine ⟨?_, fun _ _ => ?_⟩
                  · rw [← hp.2]
                    simp [DecryptOp.learn, Receiving.plaintext, DecryptOp.toReceiving, hr]
                  · rw [wf.aad] at hg
                    exact hg
                · simp [if_neg hn, if_neg hg] at hp
            · simp only [hr, if_false, Prod.mk.injEq, Outcome.ok.injEq] at hp
              rw [← hp.2]
              simp [DecryptOp.learn, Receiving.plaintext, DecryptOp.toReceiving, hr, ht]
          · simp only [ht, if_false] at hp
            split at hp
            · simp at hp
            · simp only [Prod.mk.injEq, Outcome.ok.injEq] at hp
              rw [← hp.2]
              simp [DecryptOp.learn, Receiving.plaintext, DecryptOp.toReceiving, ht, decryptPublic]
        refine ⟨by rw [h1.1, h2.1, List.map_cons], fun hr o ho hat => ?_⟩
        rcases List.mem_cons.1 ho with rfl | hm
        · exact h1.2 hr hat
        · exact h2.2 hr o hm hat

/-- Errors that occur after a flush has started. -/
def RlError.Late (e : RlError) : Prop := e ≠ .lock ∧ e ≠ .state

theorem applyKeystream_late {a a1 : Aead} {n : Bytes} {l : Nat} {e : RlError}
    (h : a.applyKeystream n l = (a1, .error e)) : e.Late := by
  simp only [Aead.applyKeystream] at h
  have hc : e = .cipher := by
    split at h
    · simp only [Prod.mk.injEq, Except.error.injEq] at h; exact h.2.symm
    · split at h
      · simp only [Prod.mk.injEq, Except.error.injEq] at h; exact h.2.symm
      · split at h
        · simp only [Prod.mk.injEq, Except.error.injEq] at h; exact h.2.symm
        · split at h
          · simp only [Prod.mk.injEq, Except.error.injEq] at h; exact h.2.symm
          · simp at h
  subst hc; exact ⟨by simp, by simp⟩

theorem takeKeystream_late {a a1 : Aead} {n : Bytes} {l : Nat} {e : RlError}
    (h : a.takeKeystream n l = (a1, .error e)) : e.Late := by
  simp only [Aead.takeKeystream] at h
  have hc : e = .cipher := by
    split at h
    · simp only [Prod.mk.injEq, Except.error.injEq] at h; exact h.2.symm
    · split at h
      · simp only [Prod.mk.injEq, Except.error.injEq] at h; exact h.2.symm
      · split at h
        · simp only [Prod.mk.injEq, Except.error.injEq] at h; exact h.2.symm
        · split at h
          · simp only [Prod.mk.injEq, Except.error.injEq] at h; exact h.2.symm
          · simp at h
  subst hc; exact ⟨by simp, by simp⟩

theorem takeJ0_late {a a1 : Aead} {n : Bytes} {e : RlError} (h : a.takeJ0 n = (a1, .error e)) : e.Late := by
  simp only [Aead.takeJ0] at h
  split at h
  · simp only [Prod.mk.injEq, Except.error.injEq] at h; rw [← h.2]; exact ⟨by simp, by simp⟩
  · split at h
    · simp only [Prod.mk.injEq, Except.error.injEq] at h; rw [← h.2]; exact ⟨by simp, by simp⟩
    · simp at h

theorem takeJ0s_late {ns : List Bytes} {a a1 : Aead} {e : RlError} (h : a.takeJ0s ns = (a1, .error e)) :
    e.Late := by
  induction ns generalizing a with
  | nil => simp [Aead.takeJ0s] at h
  | cons n ns ih =>
    simp only [Aead.takeJ0s] at h
    split at h
    · exact ih h
    · rename_i a2 e2 he
      simp only [Prod.mk.injEq, Except.error.injEq] at h; rw [← h.2]; exact takeJ0_late he

theorem tags_late {ns : List Bytes} {a a1 : Aead} {e : RlError} (h : a.tags ns = (a1, .error e)) :
    e.Late := by
  simp only [Aead.tags] at h
  split at h
  · simp only [Prod.mk.injEq, Except.error.injEq] at h; rw [← h.2]; exact ⟨by simp, by simp⟩
  · exact takeJ0s_late h

theorem encryptOps_late {ops : List EncryptOp} {a a1 : Aead} {e : RlError}
    (h : a.encryptOps ops = (a1, .error e)) : e.Late := by
  induction ops generalizing a with
  | nil => simp [Aead.encryptOps] at h
  | cons op ops ih =>
    simp only [Aead.encryptOps] at h
    split at h
    · exact ih h
    · rename_i a2 e2 he
      simp only [Prod.mk.injEq, Except.error.injEq] at h
      rw [← h.2]
      simp only [Aead.encryptOp] at he
      split at he
      · exact applyKeystream_late he
      · split at he
        · simp only [Prod.mk.injEq, Except.error.injEq] at he; rw [← he.2]; exact ⟨by simp, by simp⟩
        · exact takeKeystream_late he

theorem encryptAll_late {ops : List EncryptOp} {a a1 : Aead} {e : RlError}
    (h : a.encryptAll ops = (a1, .error e)) : e.Late := by
  simp only [Aead.encryptAll] at h
  split at h
  · rename_i a2 e2 he
    simp only [Prod.mk.injEq, Except.error.injEq] at h
    rw [← h.2]; exact encryptOps_late he
  · exact tags_late h

theorem decryptMpc_late {f : AeadFn} {ops : List DecryptOp} {a a1 : Aead} {otp otp1 : Option Bytes}
    {e : RlError} (h : decryptMpc f a otp ops = (a1, otp1, .error e)) : e.Late := by
  induction ops generalizing a otp a1 otp1 e with
  | nil => simp [decryptMpc] at h
  | cons op ops ih =>
    simp only [decryptMpc] at h
    split at h
    · rename_i a2 otp2 e2 he
      simp only [Prod.mk.injEq, Except.error.injEq] at h
      rw [← h.2.2]
      simp only [decryptOpMpc] at he
      split at he
      · split at he
        · simp only [Prod.mk.injEq, Except.error.injEq] at he; rw [← he.2.2]; exact ⟨by simp, by simp⟩
        · split at he
          · rename_i hk
            simp only [Prod.mk.injEq, Except.error.injEq] at he
            rw [← he.2.2]; exact applyKeystream_late hk
          · simp at he
      · split at he
        · rename_i hk
          simp only [Prod.mk.injEq, Except.error.injEq] at he
          rw [← he.2.2]; exact takeKeystream_late hk
        · simp at he
    · split at h
      · rename_i he
        simp only [Prod.mk.injEq, Except.error.injEq] at h
        rw [← h.2.2]; exact ih he
      · simp at h

/-- The state of the counters and buffers of a record layer that has used `n` write and `m` read sequence
numbers. -/
structure RecordLayer.Wf (r : RecordLayer) (n m : Nat) : Prop where
  write : r.writeSeq = n % 2 ^ 64
  read : r.readSeq = m % 2 ^ 64
  eops : ∀ op ∈ r.encryptBuffer, op.Wf
  dops : ∀ op ∈ r.decryptBuffer, op.Wf
  otp : ∀ otp s c, r.state = .online otp s c → (otp.isSome = true ↔ r.role = .leader)

/-- What the flush takes out of the decryption buffer. -/
def RecordLayer.flushPos (r : RecordLayer) (isDecrypting : Bool) : Nat :=
  if isDecrypting then r.decryptBuffer.length else firstAppData r.decryptBuffer

/-- The record layer after a flush that started. -/
def RecordLayer.afterFlush (r : RecordLayer) (isDecrypting : Bool) (e d : Aead) (ro : Nat)
    (eb : List EncryptedRecord) (db : List PlainRecord) (st : RlState) : RecordLayer :=
  { r with encryptBuffer := [], decryptBuffer := r.decryptBuffer.drop (r.flushPos isDecrypting),
           encrypter := e, decrypter := d, recvOnline := ro, encryptedBuffer := eb, decryptedBuffer := db,
           state := st }

theorem zipWith_map_right {α β γ : Type} (f : α → β → γ) (g : α → β) (l : List α) :
    List.zipWith f l (l.map g) = l.map fun a => f a (g a) := by
  induction l with
  | nil => rfl
  | cons a l ih => simp [ih]

theorem flush_online {k : SessionFns} {peer : Nat → Bytes} {env : FlushEnv} {r : RecordLayer} {d : Bool}
    {n m : Nat} (hw : r.Wf n m) {otp : Option Bytes} {sent recv : List Record}
    (hs : r.state = .online otp sent recv) (hl : env.locksFree = true) :
    ∃ (e1 d1 : Aead) (otp1 : Option Bytes) (ro : Nat), otp1.isSome = otp.isSome ∧
      ((∃ e, e.Late ∧ r.flush k peer env d =
          (r.afterFlush d e1 d1 ro r.encryptedBuffer r.decryptedBuffer (.online otp1 sent recv), .error e)) ∨
       (r.flush k peer env d =
          (r.afterFlush d e1 d1 ro
            (r.encryptedBuffer ++ r.encryptBuffer.map fun op => op.toSending.onWire k.client peer r.role)
            (r.decryptedBuffer ++ (r.decryptBuffer.take (r.flushPos d)).map
              fun op => op.toReceiving.plain k.server r.role)
            (.online otp1
              (sent ++ r.encryptBuffer.map fun op => op.toSending.inTranscript k.client peer r.role)
              (recv ++ (r.decryptBuffer.take (r.flushPos d)).map
                fun op => op.toReceiving.inTranscript k.server r.role)), .ok ()) ∧
        (r.role = .leader → ∀ op ∈ r.decryptBuffer.take (r.flushPos d), op.toReceiving.Authentic k.server))) := by
  have hdw : ∀ op ∈ r.decryptBuffer.take (r.flushPos d), op.Wf :=
    fun op ho => hw.dops op (List.mem_of_mem_take ho)
  have hpos : (if d = true then r.decryptBuffer.length else firstAppData r.decryptBuffer) = r.flushPos d := rfl
  simp only [RecordLayer.flush, hs, hl, Bool.not_true, Bool.false_eq_true, if_false, hpos]
  by_cases hemp : (r.encryptBuffer.isEmpty && (r.decryptBuffer.take (r.flushPos d)).isEmpty) = true
  · rw [if_pos hemp]
    simp only [Bool.and_eq_true, List.isEmpty_iff] at hemp
    refine ⟨r.encrypter, r.decrypter, otp, r.recvOnline, rfl, .inr ⟨?_, ?_⟩⟩
    · rw [hemp.1, hemp.2]
      simp only [RecordLayer.afterFlush, List.map_nil, List.append_nil, ← hs]
    · rw [hemp.2]; simp
  · rw [if_neg hemp]
    split
    · exact ⟨r.encrypter, r.decrypter, otp, r.recvOnline, rfl, .inl ⟨.limit, ⟨by simp, by simp⟩, by
        simp only [RecordLayer.afterFlush, ← hs]⟩⟩
    · generalize hro : usizeAdd r.recvOnline _ = ro
      have h2 : ∃ ro', (if d = true then
          { r with encryptBuffer := [], decryptBuffer := r.decryptBuffer.drop (r.flushPos d), recvOnline := ro,
                   state := .online otp sent recv }
          else { r with encryptBuffer := [], decryptBuffer := r.decryptBuffer.drop (r.flushPos d),
                        state := .online otp sent recv }) =
          { r with encryptBuffer := [], decryptBuffer := r.decryptBuffer.drop (r.flushPos d),
                   recvOnline := ro', state := .online otp sent recv } := by
        cases d
        · exact ⟨r.recvOnline, rfl⟩
        · exact ⟨ro, rfl⟩
      obtain ⟨ro', hro'⟩ := h2
      rw [hro']
      simp only [RecordLayer.flushRun]
      split
      · rename_i e1 err he
        exact ⟨e1, r.decrypter, otp, ro', rfl, .inl ⟨err, encryptAll_late he, by simp only [RecordLayer.afterFlush, ← hs]⟩⟩
      · rename_i e1 _
        have ho := hw.otp _ _ _ hs
        split
        · rename_i d1 otp1 err hdm
          exact ⟨e1, d1, otp1, ro', (decryptMpc_isSome _ hdw ho hdm).1, .inl ⟨err, decryptMpc_late hdm, rfl⟩⟩
        · rename_i d1 otp1 ps hdm
          have h3 := decryptMpc_isSome _ hdw ho hdm
          have hps := h3.2 ps rfl
          split
          · rename_i d2 err ht
            exact ⟨e1, d2, otp1, ro', h3.1, .inl ⟨err, tags_late ht, rfl⟩⟩
          · rename_i d2 _
            refine ⟨e1, d2, otp1, ro', h3.1, ?_⟩
            split
            · exact .inl ⟨_, ⟨by simp, by simp⟩, rfl⟩
            · split
              · exact .inl ⟨_, ⟨by simp, by simp⟩, rfl⟩
              · rename_i hvt
                split
                · exact .inl ⟨_, ⟨by simp, by simp⟩, rfl⟩
                · refine .inr ⟨?_, ?_⟩
                  · have e1' : r.encryptBuffer.map (fun op => op.encrypted k.client peer r.role) =
                        r.encryptBuffer.map fun op => op.toSending.onWire k.client peer r.role :=
                      List.map_congr_left fun op ho => (hw.eops op ho).encrypted _ _ _
                    have e2' : r.encryptBuffer.map (fun op => op.record k.client peer r.role) =
                        r.encryptBuffer.map fun op => op.toSending.inTranscript k.client peer r.role :=
                      List.map_congr_left fun op ho => (hw.eops op ho).record _ _ _
                    rw [hps, zipWith_map_right, zipWith_map_right, e1', e2']
                    rfl
                  · intro hr op ho
                    have hv : verifyTagsRun k.server r.role (r.decryptBuffer.take (r.flushPos d)) = true := by
                      simpa using hvt
                    simp only [verifyTagsRun, List.all_eq_true, hr] at hv
                    have := hv op ho
                    simp only [Bool.and_eq_true, reduceCtorEq, decide_false, Bool.false_or,
                      decide_eq_true_eq] at this
                    have h4 := this.2
                    rw [(hdw op ho).aad] at h4
                    exact h4

/-- What a flush changes at most. -/
theorem flush_frame (k : SessionFns) (peer : Nat → Bytes) (env : FlushEnv) (r : RecordLayer) (d : Bool) :
    (∃ e, r.flush k peer env d = (r, .error e)) ∨ ∃ e1 d1 ro eb db st x,
      r.flush k peer env d = (r.afterFlush d e1 d1 ro eb db st, x) ∧
      (e1 = r.encrypter ∨ e1 = (r.encrypter.encryptAll r.encryptBuffer).1) ∧
      (x = .ok () → e1 = (r.encrypter.encryptAll r.encryptBuffer).1 ∧
        (r.encrypter.encryptAll r.encryptBuffer).2 = .ok ()) ∧
      (d1 = r.decrypter ∨ ∃ otp, let y := decryptMpc k.server r.decrypter otp (r.decryptBuffer.take (r.flushPos d))
        d1 = y.1 ∨ d1 = (y.1.tags ((r.decryptBuffer.take (r.flushPos d)).map (·.nonce))).1) := by
  have hpos : (if d = true then r.decryptBuffer.length else firstAppData r.decryptBuffer) = r.flushPos d := rfl
  simp only [RecordLayer.flush, hpos]
  split
  · rename_i otp sent recv hs
    split
    · exact .inl ⟨_, rfl⟩
    · right
      split
      · rename_i hemp
        simp only [Bool.and_eq_true, List.isEmpty_iff] at hemp
        refine ⟨r.encrypter, r.decrypter, r.recvOnline, r.encryptedBuffer, r.decryptedBuffer, r.state, .ok (),
          rfl, .inl rfl, fun _ => ?_, .inl rfl⟩
        rw [hemp.1]
        simp [Aead.encryptAll, Aead.encryptOps, Aead.tags, Aead.takeJ0s]
      · split
        · exact ⟨r.encrypter, r.decrypter, r.recvOnline, r.encryptedBuffer, r.decryptedBuffer, r.state, _,
            rfl, .inl rfl, by simp, .inl rfl⟩
        · generalize hro : usizeAdd r.recvOnline _ = ro
          have h2 : ∃ ro', (if d = true then
              { r with encryptBuffer := [], decryptBuffer := r.decryptBuffer.drop (r.flushPos d),
                       recvOnline := ro }
              else { r with encryptBuffer := [], decryptBuffer := r.decryptBuffer.drop (r.flushPos d) }) =
              { r with encryptBuffer := [], decryptBuffer := r.decryptBuffer.drop (r.flushPos d),
                       recvOnline := ro' } := by
            cases d
            · exact ⟨r.recvOnline, rfl⟩
            · exact ⟨ro, rfl⟩
          obtain ⟨ro', hro'⟩ := h2
          rw [hro']
          simp only [RecordLayer.flushRun]
          split
          · rename_i e1 err he
            exact ⟨e1, r.decrypter, ro', _, _, r.state, _, rfl, .inr (by rw [he]), by simp, .inl rfl⟩
          · rename_i e1 he
            split
            · rename_i d1 otp1 err hdm
              exact ⟨e1, d1, ro', _, _, _, _, rfl, .inr (by rw [he]), by simp, .inr ⟨otp, .inl (by rw [hdm])⟩⟩
            · rename_i d1 otp1 ps hdm
              split
              · rename_i d2 err ht
                exact ⟨e1, d2, ro', _, _, _, _, rfl, .inr (by rw [he]), by simp,
                  .inr ⟨otp, .inr (by simp only [hdm]; rw [ht])⟩⟩
              · rename_i d2 ht
                split
                · exact ⟨e1, d2, ro', _, _, _, _, rfl, .inr (by rw [he]), by simp,
                    .inr ⟨otp, .inr (by simp only [hdm]; rw [ht])⟩⟩
                · split
                  · exact ⟨e1, d2, ro', _, _, _, _, rfl, .inr (by rw [he]), by simp,
                      .inr ⟨otp, .inr (by simp only [hdm]; rw [ht])⟩⟩
                  · split
                    · exact ⟨e1, d2, ro', _, _, _, _, rfl, .inr (by rw [he]), by simp,
                        .inr ⟨otp, .inr (by simp only [hdm]; rw [ht])⟩⟩
                    · exact ⟨e1, d2, ro', _, _, _, _, rfl, .inr (by rw [he]), fun _ => by simp [he],
                        .inr ⟨otp, .inr (by simp only [hdm]; rw [ht])⟩⟩
  · exact .inl ⟨_, rfl⟩

theorem flush_not_started {k : SessionFns} {peer : Nat → Bytes} {env : FlushEnv} {r : RecordLayer} {d : Bool}
    (h : (∀ otp s c, r.state ≠ .online otp s c) ∨ env.locksFree = false) :
    ∃ e, (e = RlError.lock ∨ e = .state) ∧ r.flush k peer env d = (r, .error e) := by
  simp only [RecordLayer.flush]
  cases hs : r.state with
  | online otp s c =>
    rcases h with h | h
    · exact absurd hs (h _ _ _)
    · exact ⟨.lock, .inl rfl, by simp [h]⟩
  | init => exact ⟨.state, .inr rfl, rfl⟩
  | complete => exact ⟨.state, .inr rfl, rfl⟩
  | error => exact ⟨.state, .inr rfl, rfl⟩

end Tlsn
