import Verif.RecordLayer.Lemmas

/-! # Histories of the record layer -/

namespace Tlsn

/-- The write sequence number after a call. -/
def nextW (n : Nat) : RlCall × RlResult → Nat
  | (.pushEncrypt .., .done) => n + 1
  | (.pushEncrypt .., .failed .plaintext) => n + 1
  | _ => n

/-- The read sequence number after a call. -/
def nextR (m : Nat) : RlCall × RlResult → Nat
  | (.pushDecrypt .., .done) => m + 1
  | _ => m

theorem accepted_cons (n : Nat) (x : RlCall × RlResult) (h : RlHistory) :
    accepted n (x :: h) = accepted n [x] ++ accepted (nextW n x) h := by
  obtain ⟨c, res⟩ := x
  cases c <;> cases res <;> try rfl
  rename_i e
  cases e <;> rfl

theorem incoming_cons (m : Nat) (x : RlCall × RlResult) (h : RlHistory) :
    incoming m (x :: h) = incoming m [x] ++ incoming (nextR m x) h := by
  obtain ⟨c, res⟩ := x
  cases c <;> cases res <;> rfl

theorem nextW_le (n : Nat) (x : RlCall × RlResult) : n ≤ nextW n x ∧ nextW n x ≤ n + 1 := by
  unfold nextW; split <;> omega

theorem nextR_le (m : Nat) (x : RlCall × RlResult) : m ≤ nextR m x ∧ nextR m x ≤ m + 1 := by
  unfold nextR; split <;> omega

/-- The records that will be released: encrypted ones and pending ones. -/
def RecordLayer.outE (k : SessionFns) (peer : Nat → Bytes) (r : RecordLayer) : List EncryptedRecord :=
  r.encryptedBuffer ++ r.encryptBuffer.map fun op => op.toSending.onWire k.client peer r.role

/-- The records that will be delivered. -/
def RecordLayer.outD (k : SessionFns) (r : RecordLayer) : List PlainRecord :=
  r.decryptedBuffer ++ r.decryptBuffer.map fun op => op.toReceiving.plain k.server r.role

/-- The pending part of the sent transcript. -/
def RecordLayer.pendS (k : SessionFns) (peer : Nat → Bytes) (r : RecordLayer) : List Record :=
  r.encryptBuffer.map fun op => op.toSending.inTranscript k.client peer r.role

/-- The pending part of the received transcript. -/
def RecordLayer.pendR (k : SessionFns) (r : RecordLayer) : List Record :=
  r.decryptBuffer.map fun op => op.toReceiving.inTranscript k.server r.role

/-- What one call does. -/
structure StepOk (k : SessionFns) (peer : Nat → Bytes) (r : RecordLayer) (n m : Nat) (x : RlCall × RlResult)
    (r' : RecordLayer) : Prop where
  wf : r'.Wf (nextW n x) (nextR m x)
  role : r'.role = r.role
  sub : (released [x] ++ r'.outE k peer).Sublist
    (r.outE k peer ++ (accepted n [x]).map (·.onWire k.client peer r.role))
  eq : lossless x = true → released [x] ++ r'.outE k peer =
    r.outE k peer ++ (accepted n [x]).map (·.onWire k.client peer r.role)
  subD : (delivered [x] ++ r'.outD k).Sublist
    (r.outD k ++ (incoming m [x]).map (·.plain k.server r.role))
  eqD : lossless x = true → delivered [x] ++ r'.outD k =
    r.outD k ++ (incoming m [x]).map (·.plain k.server r.role)
  trans : ∀ otp s c, r'.state = .online otp s c → ∃ otp0 s0 c0, r.state = .online otp0 s0 c0 ∧
    (s ++ r'.pendS k peer).Sublist
      (s0 ++ r.pendS k peer ++ (accepted n [x]).map (·.inTranscript k.client peer r.role)) ∧
    (c ++ r'.pendR k).Sublist (c0 ++ r.pendR k ++ (incoming m [x]).map (·.inTranscript k.server r.role)) ∧
    (lossless x = true →
      s ++ r'.pendS k peer =
        s0 ++ r.pendS k peer ++ (accepted n [x]).map (·.inTranscript k.client peer r.role) ∧
      c ++ r'.pendR k = c0 ++ r.pendR k ++ (incoming m [x]).map (·.inTranscript k.server r.role))

theorem StepOk.refl (k : SessionFns) (peer : Nat → Bytes) {r : RecordLayer} {n m : Nat} (hw : r.Wf n m)
    (x : RlCall × RlResult) (hn : nextW n x = n) (hm : nextR m x = m) (ha : accepted n [x] = [])
    (hi : incoming m [x] = []) (hr : released [x] = []) (hd : delivered [x] = []) :
    StepOk k peer r n m x r where
  wf := by rw [hn, hm]; exact hw
  role := rfl
  sub := by simp [ha, hr]
  eq := by simp [ha, hr]
  subD := by simp [hi, hd]
  eqD := by simp [hi, hd]
  trans := fun otp s c h => ⟨otp, s, c, h, by simp [ha], by simp [hi], by simp [ha, hi]⟩

theorem succ_mod_mod (n : Nat) : (n % 2 ^ 64 + 1) % 2 ^ 64 = (n + 1) % 2 ^ 64 := by omega

theorem step_pushEncrypt {k : SessionFns} {peer : Nat → Bytes} {r : RecordLayer} {n m : Nat} (hw : r.Wf n m)
    (hn : n < 2 ^ 64) (t : ContentType) (v : ProtocolVersion) (l : Nat) (p : Option Bytes) :
    StepOk k peer r n m (.pushEncrypt t v l p, (r.step k peer (.pushEncrypt t v l p)).2)
      (r.step k peer (.pushEncrypt t v l p)).1 := by
  simp only [RecordLayer.step, RecordLayer.pushEncrypt]
  by_cases hb : r.encryptBuffer.length ≥ maxBufferSize
  · simp only [if_pos hb]
    exact StepOk.refl k peer hw _ rfl rfl rfl rfl rfl rfl
  by_cases hl : usizeAdd r.sent l > r.maxSent
  · simp only [if_neg hb, if_pos hl]
    exact StepOk.refl k peer hw _ rfl rfl rfl rfl rfl rfl
  simp only [if_neg hb, if_neg hl]
  have hseq : r.writeSeq = n := by rw [hw.write]; exact Nat.mod_eq_of_lt hn
  have hws : (r.writeSeq + 1) % 2 ^ 64 = (n + 1) % 2 ^ 64 := by rw [hseq]
  by_cases h1 : (p.any fun p => decide (p.length ≠ l)) = true
  · simp only [EncryptOp.new, if_pos h1, RlResult.ofExcept]
    refine ⟨⟨hws, hw.read, hw.eops, hw.dops, hw.otp⟩, rfl, ?_, fun h => ?_, ?_, fun h => ?_, ?_⟩
    · simp [released, accepted, RecordLayer.outE]
    · simp [lossless] at h
    · simp [delivered, incoming, RecordLayer.outD]
    · simp [lossless] at h
    · intro otp s c h
      exact ⟨otp, s, c, h, by simp [accepted, RecordLayer.pendS], by simp [incoming, RecordLayer.pendR],
        fun h => by simp [lossless] at h⟩
  by_cases h2 : modeOf t = .pub ∧ p = none
  · simp only [EncryptOp.new, if_neg h1, if_pos h2, RlResult.ofExcept]
    refine ⟨⟨hws, hw.read, hw.eops, hw.dops, hw.otp⟩, rfl, ?_, fun h => ?_, ?_, fun h => ?_, ?_⟩
    · simp [released, accepted, RecordLayer.outE]
    · simp [lossless] at h
    · simp [delivered, incoming, RecordLayer.outD]
    · simp [lossless] at h
    · intro otp s c h
      exact ⟨otp, s, c, h, by simp [accepted, RecordLayer.pendS], by simp [incoming, RecordLayer.pendR],
        fun h => by simp [lossless] at h⟩
  simp only [EncryptOp.new, if_neg h1, if_neg h2, RlResult.ofExcept]
  have hop : ∀ op ∈ r.encryptBuffer ++ [EncryptOp.mk r.writeSeq t v l p (beBytes 8 r.writeSeq)
      (makeTls12Aad r.writeSeq t v l) (modeOf t)], op.Wf := by
    intro op ho
    rcases List.mem_append.1 ho with ho | ho
    · exact hw.eops op ho
    · simp only [List.mem_singleton] at ho
      subst ho
      refine ⟨rfl, rfl, rfl, ?_, ?_⟩
      · rintro q hq
        simp only at hq
        subst hq
        simpa using h1
      · intro hq hp
        exact h2 ⟨by simp only at hq; simp [modeOf, hq], hp⟩
  refine ⟨⟨hws, hw.read, hop, hw.dops, hw.otp⟩, rfl, ?_, fun h => ?_, ?_, fun h => ?_, ?_⟩
  · simp [released, accepted, RecordLayer.outE, EncryptOp.toSending, hseq]
  · simp [released, accepted, RecordLayer.outE, EncryptOp.toSending, hseq]
  · simp [delivered, incoming, RecordLayer.outD]
  · simp [delivered, incoming, RecordLayer.outD]
  · intro otp s c h
    exact ⟨otp, s, c, h, by simp [accepted, RecordLayer.pendS, EncryptOp.toSending, hseq],
      by simp [incoming, RecordLayer.pendR],
      fun h => by simp [accepted, RecordLayer.pendS, EncryptOp.toSending, hseq, incoming, RecordLayer.pendR]⟩

theorem step_pushDecrypt {k : SessionFns} {peer : Nat → Bytes} {r : RecordLayer} {n m : Nat} (hw : r.Wf n m)
    (hm : m < 2 ^ 64) (t : ContentType) (v : ProtocolVersion) (nc ct tg : Bytes) :
    StepOk k peer r n m (.pushDecrypt t v nc ct tg, (r.step k peer (.pushDecrypt t v nc ct tg)).2)
      (r.step k peer (.pushDecrypt t v nc ct tg)).1 := by
  simp only [RecordLayer.step, RecordLayer.pushDecrypt]
  by_cases hb : r.decryptBuffer.length ≥ maxBufferSize
  · simp only [if_pos hb]
    exact StepOk.refl k peer hw _ rfl rfl rfl rfl rfl rfl
  by_cases hl : usizeAdd r.recv ct.length > r.maxRecv
  · simp only [if_neg hb, if_pos hl]
    exact StepOk.refl k peer hw _ rfl rfl rfl rfl rfl rfl
  simp only [if_neg hb, if_neg hl, RlResult.ofExcept]
  have hseq : r.readSeq = m := by rw [hw.read]; exact Nat.mod_eq_of_lt hm
  have hws : (r.readSeq + 1) % 2 ^ 64 = (m + 1) % 2 ^ 64 := by rw [hseq]
  have hop : ∀ op ∈ r.decryptBuffer ++ [DecryptOp.mk r.readSeq t v nc ct
      (makeTls12Aad r.readSeq t v ct.length) tg (modeOf t)], op.Wf := by
    intro op ho
    rcases List.mem_append.1 ho with ho | ho
    · exact hw.dops op ho
    · simp only [List.mem_singleton] at ho
      subst ho
      exact ⟨rfl, rfl⟩
  refine ⟨⟨hw.write, hws, hw.eops, hop, hw.otp⟩, rfl, ?_, fun h => ?_, ?_, fun h => ?_, ?_⟩
  · simp [released, accepted, RecordLayer.outE]
  · simp [released, accepted, RecordLayer.outE]
  · simp [delivered, incoming, RecordLayer.outD, DecryptOp.toReceiving, hseq]
  · simp [delivered, incoming, RecordLayer.outD, DecryptOp.toReceiving, hseq]
  · intro otp s c h
    exact ⟨otp, s, c, h, by simp [accepted, RecordLayer.pendS],
      by simp [incoming, RecordLayer.pendR, DecryptOp.toReceiving, hseq],
      fun h => by simp [accepted, RecordLayer.pendS, DecryptOp.toReceiving, hseq, incoming, RecordLayer.pendR]⟩

theorem step_flush {k : SessionFns} {peer : Nat → Bytes} {r : RecordLayer} {n m : Nat} (hw : r.Wf n m)
    (env : FlushEnv) (d : Bool) :
    StepOk k peer r n m (.flush env d, (r.step k peer (.flush env d)).2) (r.step k peer (.flush env d)).1 := by
  simp only [RecordLayer.step]
  by_cases hst : (∀ otp s c, r.state ≠ .online otp s c) ∨ env.locksFree = false
  · obtain ⟨e, he, hf⟩ := flush_not_started (k := k) (peer := peer) (d := d) hst
    rw [hf]
    exact StepOk.refl k peer hw _ rfl rfl rfl rfl rfl rfl
  · have hl : env.locksFree = true := by
      cases hx : env.locksFree
      · exact absurd (.inr hx) hst
      · rfl
    have hol : ∃ otp s c, r.state = .online otp s c := by
      cases hx : r.state with
      | online o s c => exact ⟨o, s, c, rfl⟩
      | _ => exact absurd (.inl (by simp [hx])) hst
    obtain ⟨otp, sent, recv, hs⟩ := hol
    obtain ⟨e1, d1, otp1, ro, ho, hf⟩ := flush_online (k := k) (peer := peer) (d := d) hw hs hl
    have hdw : ∀ op ∈ r.decryptBuffer.drop (r.flushPos d), op.Wf :=
      fun op ho => hw.dops op (List.mem_of_mem_drop ho)
    have hotp := hw.otp _ _ _ hs
    rw [← ho] at hotp
    rcases hf with ⟨e, hlate, hf⟩ | ⟨hf, -⟩
    · rw [hf]
      have hnot : lossless (.flush env d, RlResult.ofExcept (.error e)) = true → False := by
        intro h
        simp only [lossless, RlResult.ofExcept, decide_eq_true_eq] at h
        exact h.elim hlate.1 hlate.2
      refine ⟨⟨hw.write, hw.read, by simp [RecordLayer.afterFlush], hdw, ?_⟩, rfl, ?_,
        fun h => (hnot h).elim, ?_, fun h => (hnot h).elim, ?_⟩
      · rintro o s c ⟨⟩; exact hotp
      · simp [released, accepted, RecordLayer.outE, RecordLayer.afterFlush, RlResult.ofExcept]
      · simpa [delivered, incoming, RecordLayer.outD, RecordLayer.afterFlush, RlResult.ofExcept]
          using (List.drop_sublist _ _).map _
      · rintro o s c ⟨⟩
        refine ⟨otp, sent, recv, hs, ?_, ?_, fun h => (hnot h).elim⟩
        · simp [accepted, RecordLayer.pendS, RecordLayer.afterFlush]
        · simpa [incoming, RecordLayer.pendR, RecordLayer.afterFlush, RlResult.ofExcept]
            using (List.drop_sublist _ _).map _
    · rw [hf]
      simp only [RlResult.ofExcept]
      refine ⟨⟨hw.write, hw.read, by simp [RecordLayer.afterFlush], hdw, ?_⟩, rfl, ?_, fun h => ?_, ?_,
        fun h => ?_, ?_⟩
      · rintro o s c ⟨⟩; exact hotp
      · simp [released, accepted, RecordLayer.outE, RecordLayer.afterFlush]
      · simp [released, accepted, RecordLayer.outE, RecordLayer.afterFlush]
      · simp [delivered, incoming, RecordLayer.outD, RecordLayer.afterFlush]
      · simp [delivered, incoming, RecordLayer.outD, RecordLayer.afterFlush]
      · rintro o s c ⟨⟩
        refine ⟨otp, sent, recv, hs, ?_, ?_, fun _ => ⟨?_, ?_⟩⟩ <;>
          simp [accepted, incoming, RecordLayer.pendS, RecordLayer.pendR, RecordLayer.afterFlush]

theorem step_next {k : SessionFns} {peer : Nat → Bytes} {r : RecordLayer} {n m : Nat} (hw : r.Wf n m) :
    StepOk k peer r n m (.nextEncrypted, (r.step k peer .nextEncrypted).2) (r.step k peer .nextEncrypted).1 ∧
    StepOk k peer r n m (.nextDecrypted, (r.step k peer .nextDecrypted).2) (r.step k peer .nextDecrypted).1 ∧
    StepOk k peer r n m (.startTraffic, (r.step k peer .startTraffic).2) (r.step k peer .startTraffic).1 := by
  refine ⟨?_, ?_, ?_⟩
  · simp only [RecordLayer.step, RecordLayer.nextEncrypted]
    split
    · exact StepOk.refl k peer hw _ rfl rfl rfl rfl rfl rfl
    · rename_i x rest hx
      split
      · exact StepOk.refl k peer hw _ rfl rfl rfl rfl rfl rfl
      · refine ⟨⟨hw.write, hw.read, hw.eops, hw.dops, hw.otp⟩, rfl, ?_, fun h => ?_, ?_, fun h => ?_,
          fun otp s c h => ⟨otp, s, c, h, ?_, ?_, fun h => ⟨?_, ?_⟩⟩⟩ <;>
        simp [released, delivered, accepted, incoming, RecordLayer.outE, RecordLayer.outD, hx,
          RecordLayer.pendS, RecordLayer.pendR]
  · simp only [RecordLayer.step, RecordLayer.nextDecrypted]
    split
    · exact StepOk.refl k peer hw _ rfl rfl rfl rfl rfl rfl
    · rename_i x rest hx
      split
      · exact StepOk.refl k peer hw _ rfl rfl rfl rfl rfl rfl
      · refine ⟨⟨hw.write, hw.read, hw.eops, hw.dops, hw.otp⟩, rfl, ?_, fun h => ?_, ?_, fun h => ?_,
          fun otp s c h => ⟨otp, s, c, h, ?_, ?_, fun h => ⟨?_, ?_⟩⟩⟩ <;>
        simp [released, delivered, accepted, incoming, RecordLayer.outE, RecordLayer.outD, hx,
          RecordLayer.pendS, RecordLayer.pendR]
  · simp only [RecordLayer.step]
    refine ⟨⟨hw.write, hw.read, hw.eops, hw.dops, hw.otp⟩, rfl, ?_, fun h => ?_, ?_, fun h => ?_,
      fun otp s c h => ⟨otp, s, c, h, ?_, ?_, fun h => ⟨?_, ?_⟩⟩⟩ <;>
    simp [released, delivered, accepted, incoming, RecordLayer.outE, RecordLayer.outD,
      RecordLayer.pendS, RecordLayer.pendR]

/-- `commit` returns the sent transcript and the received transcript with everything that was pending. -/
theorem commit_ok {k : SessionFns} {env : FlushEnv} {r : RecordLayer} {n m : Nat} (hw : r.Wf n m)
    {r' : RecordLayer} {s c : List Record} (h : r.commit k env = (r', .ok (s, c))) :
    ∃ otp c0 d1, r.state = .online otp s c0 ∧ r.encryptBuffer = [] ∧ c = c0 ++ r.pendR k ∧
      r' = { r with decrypter := d1, decryptBuffer := [], state := .complete,
                    decryptedBuffer := r.outD k } ∧
      (r.role = .leader → ∀ op ∈ r.decryptBuffer, op.typ = .applicationData →
        op.toReceiving.Authentic k.server) := by
  simp only [RecordLayer.commit] at h
  split at h
  · rename_i otp sent recv hs
    split at h
    · simp at h
    · rename_i hb
      split at h
      · simp at h
      · split at h
        · simp at h
        · split at h
          · simp at h
          · simp at h
          · rename_i d1 ps hd
            have h1 := decryptLocal_ok _ hw.dops hd
            simp only [Prod.mk.injEq, Outcome.ok.injEq] at h
            obtain ⟨rfl, rfl, rfl⟩ := h
            refine ⟨otp, recv, d1, hs, by simpa using hb, ?_, ?_, h1.2⟩
            · rw [h1.1, zipWith_map_right]; rfl
            · rw [h1.1, zipWith_map_right]; rfl
  · simp at h

theorem commit_fail {k : SessionFns} {env : FlushEnv} {r r' : RecordLayer}
    {x : Outcome RlError (List Record × List Record)} (h : r.commit k env = (r', x)) (hx : ∀ p, x ≠ .ok p) :
    ∃ d1 b, (b = [] ∨ b = r.decryptBuffer) ∧
      r' = { r with decrypter := d1, decryptBuffer := b, state := .error } := by
  simp only [RecordLayer.commit] at h
  split at h
  · split at h
    · simp only [Prod.mk.injEq] at h; exact ⟨r.decrypter, r.decryptBuffer, .inr rfl, h.1.symm⟩
    · split at h
      · simp only [Prod.mk.injEq] at h; exact ⟨r.decrypter, r.decryptBuffer, .inr rfl, h.1.symm⟩
      · split at h
        · simp only [Prod.mk.injEq] at h; exact ⟨r.decrypter, [], .inl rfl, h.1.symm⟩
        · split at h
          · rename_i d1 _ _
            simp only [Prod.mk.injEq] at h; exact ⟨d1, [], .inl rfl, h.1.symm⟩
          · rename_i d1 _
            simp only [Prod.mk.injEq] at h; exact ⟨d1, [], .inl rfl, h.1.symm⟩
          · simp only [Prod.mk.injEq] at h; exact absurd h.2.symm (hx _)
  · simp only [Prod.mk.injEq] at h; exact ⟨r.decrypter, r.decryptBuffer, .inr rfl, h.1.symm⟩

theorem step_commit {k : SessionFns} {peer : Nat → Bytes} {r : RecordLayer} {n m : Nat} (hw : r.Wf n m)
    (env : FlushEnv) :
    StepOk k peer r n m (.commit env, (r.step k peer (.commit env)).2) (r.step k peer (.commit env)).1 := by
  simp only [RecordLayer.step]
  cases hc : r.commit k env with
  | mk r' x =>
  by_cases hx : ∀ p, x ≠ .ok p
  · obtain ⟨d1, b, hb, rfl⟩ := commit_fail hc hx
    have hb' : b.Sublist r.decryptBuffer := by rcases hb with rfl | rfl <;> simp
    have hnot : lossless (.commit env, RlResult.ofCommit x) = true → False := by
      cases x with
      | ok p => exact absurd rfl (hx p)
      | err e => simp [RlResult.ofCommit, lossless]
      | panic => simp [RlResult.ofCommit, lossless]
    have hrel : released [(RlCall.commit env, RlResult.ofCommit x)] = [] := by cases x <;> rfl
    have hdel : delivered [(RlCall.commit env, RlResult.ofCommit x)] = [] := by cases x <;> rfl
    refine ⟨⟨hw.write, hw.read, hw.eops, fun op ho => hw.dops op (hb'.subset ho), by simp⟩, rfl, ?_,
      fun h => (hnot h).elim, ?_, fun h => (hnot h).elim, by simp⟩
    · simp [hrel, accepted, RecordLayer.outE]
    · simpa [hdel, incoming, RecordLayer.outD] using hb'.map _
  · have hx : ∃ p, x = .ok p := by
      cases x with
      | ok p => exact ⟨p, rfl⟩
      | err e => exact absurd (by simp) hx
      | panic => exact absurd (by simp) hx
    obtain ⟨⟨s, c⟩, rfl⟩ := hx
    obtain ⟨otp, c0, d1, hs, hb, rfl, rfl, -⟩ := commit_ok hw hc
    refine ⟨⟨hw.write, hw.read, hw.eops, by simp, by simp⟩, rfl, ?_, fun h => ?_, ?_, fun h => ?_, by simp⟩ <;>
      simp [RlResult.ofCommit, released, delivered, accepted, incoming, RecordLayer.outE, RecordLayer.outD]

theorem step_ok {k : SessionFns} {peer : Nat → Bytes} {r : RecordLayer} {n m : Nat} (hw : r.Wf n m)
    (hn : n < 2 ^ 64) (hm : m < 2 ^ 64) (c : RlCall) :
    StepOk k peer r n m (c, (r.step k peer c).2) (r.step k peer c).1 := by
  cases c with
  | pushEncrypt t v l p => exact step_pushEncrypt hw hn t v l p
  | pushDecrypt t v nc ct tg => exact step_pushDecrypt hw hm t v nc ct tg
  | flush env d => exact step_flush hw env d
  | startTraffic => exact (step_next hw).2.2
  | nextEncrypted => exact (step_next hw).1
  | nextDecrypted => exact (step_next hw).2.1
  | commit env => exact step_commit hw env

theorem history_cons (k : SessionFns) (peer : Nat → Bytes) (r : RecordLayer) (c : RlCall) (cs : List RlCall) :
    r.history k peer (c :: cs) =
      (c, (r.step k peer c).2) :: (r.step k peer c).1.history k peer cs := rfl

theorem released_cons (x : RlCall × RlResult) (h : RlHistory) :
    released (x :: h) = released [x] ++ released h := by
  rw [released, released, released, ← List.filterMap_append]; rfl

theorem delivered_cons (x : RlCall × RlResult) (h : RlHistory) :
    delivered (x :: h) = delivered [x] ++ delivered h := by
  rw [delivered, delivered, delivered, ← List.filterMap_append]; rfl

/-- What a list of calls does. -/
structure RunOk (k : SessionFns) (peer : Nat → Bytes) (r : RecordLayer) (n m : Nat) (h : RlHistory)
    (r' : RecordLayer) : Prop where
  wf : ∃ n' m', r'.Wf n' m' ∧ n' ≤ n + h.length ∧ m' ≤ m + h.length
  role : r'.role = r.role
  sub : (released h ++ r'.outE k peer).Sublist
    (r.outE k peer ++ (accepted n h).map (·.onWire k.client peer r.role))
  eq : (∀ x ∈ h, lossless x = true) → released h ++ r'.outE k peer =
    r.outE k peer ++ (accepted n h).map (·.onWire k.client peer r.role)
  subD : (delivered h ++ r'.outD k).Sublist
    (r.outD k ++ (incoming m h).map (·.plain k.server r.role))
  eqD : (∀ x ∈ h, lossless x = true) → delivered h ++ r'.outD k =
    r.outD k ++ (incoming m h).map (·.plain k.server r.role)
  trans : ∀ otp s c, r'.state = .online otp s c → ∃ otp0 s0 c0, r.state = .online otp0 s0 c0 ∧
    (s ++ r'.pendS k peer).Sublist
      (s0 ++ r.pendS k peer ++ (accepted n h).map (·.inTranscript k.client peer r.role)) ∧
    (c ++ r'.pendR k).Sublist (c0 ++ r.pendR k ++ (incoming m h).map (·.inTranscript k.server r.role)) ∧
    ((∀ x ∈ h, lossless x = true) →
      s ++ r'.pendS k peer =
        s0 ++ r.pendS k peer ++ (accepted n h).map (·.inTranscript k.client peer r.role) ∧
      c ++ r'.pendR k = c0 ++ r.pendR k ++ (incoming m h).map (·.inTranscript k.server r.role))

theorem run_ok {k : SessionFns} {peer : Nat → Bytes} (cs : List RlCall) {r : RecordLayer} {n m : Nat}
    (hw : r.Wf n m) (hn : n + cs.length ≤ 2 ^ 64) (hm : m + cs.length ≤ 2 ^ 64) :
    RunOk k peer r n m (r.history k peer cs) (r.run k peer cs).1 := by
  induction cs generalizing r n m with
  | nil =>
    refine ⟨⟨n, m, hw, by simp, by simp⟩, rfl, ?_, ?_, ?_, ?_, fun otp s c h => ⟨otp, s, c, h, ?_, ?_, ?_⟩⟩ <;>
      simp [RecordLayer.history, RecordLayer.run, released, delivered, accepted, incoming]
  | cons c cs ih =>
    simp only [List.length_cons] at hn hm
    have h1 := step_ok (k := k) (peer := peer) hw (by omega) (by omega) c
    rw [history_cons]
    generalize hx : (c, (r.step k peer c).2) = x at h1
    have hle := nextW_le n x
    have hle' := nextR_le m x
    have h2 := ih h1.wf (by omega) (by omega)
    have hr1 : (r.run k peer (c :: cs)).1 = ((r.step k peer c).1.run k peer cs).1 := rfl
    rw [hr1]
    generalize (r.step k peer c).1 = r1 at h1 h2
    generalize (r1.run k peer cs).1 = r2 at h2
    generalize r1.history k peer cs = h at h2
    refine ⟨?_, h2.role.trans h1.role, ?_, fun hl => ?_, ?_, fun hl => ?_, fun otp s c ho => ?_⟩
    · obtain ⟨n', m', hw', ha, hb⟩ := h2.wf
      exact ⟨n', m', hw', by simp only [List.length_cons]; omega, by simp only [List.length_cons]; omega⟩
    · rw [released_cons, accepted_cons, List.map_append, List.append_assoc, ← List.append_assoc (r.outE k peer)]
      have a := h2.sub
      rw [h1.role] at a
      refine (List.Sublist.append (List.Sublist.refl _) a).trans ?_
      rw [← List.append_assoc]
      exact List.Sublist.append h1.sub (List.Sublist.refl _)
    · rw [released_cons, accepted_cons, List.map_append, List.append_assoc, ← List.append_assoc (r.outE k peer),
        h2.eq fun y hy => hl y (List.mem_cons_of_mem _ hy), ← List.append_assoc,
        h1.eq (hl x (by simp)), h1.role]
    · rw [delivered_cons, incoming_cons, List.map_append, List.append_assoc, ← List.append_assoc (r.outD k)]
      have a := h2.subD
      rw [h1.role] at a
      refine (List.Sublist.append (List.Sublist.refl _) a).trans ?_
      rw [← List.append_assoc]
      exact List.Sublist.append h1.subD (List.Sublist.refl _)
    · rw [delivered_cons, incoming_cons, List.map_append, List.append_assoc, ← List.append_assoc (r.outD k),
        h2.eqD fun y hy => hl y (List.mem_cons_of_mem _ hy), ← List.append_assoc,
        h1.eqD (hl x (by simp)), h1.role]
    · obtain ⟨otp1, s1, c1, ho1, a1, a2, a3⟩ := h2.trans otp s c ho
      obtain ⟨otp0, s0, c0, ho0, b1, b2, b3⟩ := h1.trans otp1 s1 c1 ho1
      rw [h1.role] at a1 a2 a3
      refine ⟨otp0, s0, c0, ho0, ?_, ?_, fun hl => ?_⟩
      · rw [accepted_cons, List.map_append, ← List.append_assoc]
        exact a1.trans (List.Sublist.append b1 (List.Sublist.refl _))
      · rw [incoming_cons, List.map_append, ← List.append_assoc]
        exact a2.trans (List.Sublist.append b2 (List.Sublist.refl _))
      · have a4 := a3 fun y hy => hl y (List.mem_cons_of_mem _ hy)
        have b4 := b3 (hl x (by simp))
        rw [accepted_cons, incoming_cons, List.map_append, List.map_append, ← List.append_assoc,
          ← List.append_assoc, ← b4.1, ← b4.2]
        exact a4

theorem online_wf (role : Role) (otp : Bytes) (a b c d e : Nat) :
    (RecordLayer.online role otp a b c d e).Wf 0 0 := by
  refine ⟨rfl, rfl, by simp [RecordLayer.online], by simp [RecordLayer.online], ?_⟩
  rintro o s c' h
  simp only [RecordLayer.online, RlState.online.injEq] at h
  rw [← h.1]
  cases role <;> simp [RecordLayer.online]

end Tlsn
