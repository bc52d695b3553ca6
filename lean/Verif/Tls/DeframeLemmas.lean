import Verif.Tls.FrameLemmas

/-! # Lemmas about the deframer -/

namespace Tlsn

theorem frameBytes_header {m : OpaqueMessage} (hl : m.payload.length < 65536) (rest : Bytes) :
    HasHeader (frameBytes m ++ rest) m.typ.getU8 m.version.getU16.toNat m.payload.length (m.payload ++ rest) :=
  ⟨m.version.getU16.toNat_lt, hl, by simp [frameBytes]⟩

theorem frameBytes_length (m : OpaqueMessage) : (frameBytes m).length = 5 + m.payload.length := by
  simp [frameBytes]; omega

/-- What a frame in a deframed stream satisfies. -/
def FrameOk (m : OpaqueMessage) : Prop :=
  LegalHeader m.typ.getU8 m.version.getU16.toNat m.payload.length ∧
    ContentType.ofU8 m.typ.getU8 = m.typ ∧ ProtocolVersion.ofU16 m.version.getU16 = m.version

theorem opaqueFront_frame {m : OpaqueMessage} (h : FrameOk m) (rest : Bytes) :
    opaqueFront (frameBytes m ++ rest) = .msg m (5 + m.payload.length) := by
  have hl : m.payload.length < 65536 := Nat.lt_trans h.1.2.2.1 (by decide)
  rw [opaqueFront_msg (frameBytes_header hl rest) h.1 (by simp), List.take_left, h.2.1, UInt16.ofNat_toNat, h.2.2]

theorem opaqueFront_eq_msg {b : Bytes} {m : OpaqueMessage} {k : Nat} (h : opaqueFront b = .msg m k) :
    FrameOk m ∧ k = (frameBytes m).length ∧ b = frameBytes m ++ b.drop k := by
  rcases opaqueFront_cases b with ⟨_, h'⟩ | ⟨t, v, l, body, _, _, h'⟩ | ⟨t, v, l, body, _, _, _, h'⟩ |
    ⟨t, v, l, body, hh, hleg, hle, h'⟩
  · rw [h] at h'; cases h'
  · rw [h] at h'; cases h'
  · rw [h] at h'; cases h'
  · rw [h] at h'
    injection h' with hm hk
    subst hm hk
    have hlen : (body.take l).length = l := by simp; omega
    have hv : (UInt16.ofNat v).toNat = v := by rw [UInt16.toNat_ofNat', Nat.mod_eq_of_lt hh.1]
    have hf : frameBytes ⟨ContentType.ofU8 t, ProtocolVersion.ofU16 (UInt16.ofNat v), body.take l⟩ =
        t :: (beBytes 2 v ++ (beBytes 2 l ++ body.take l)) := by
      simp only [frameBytes, hlen, ContentType.getU8_ofU8, ProtocolVersion.getU16_ofU16, hv]
    refine ⟨⟨?_, ?_, ?_⟩, ?_, ?_⟩
    · simp only [hlen, ContentType.getU8_ofU8, ProtocolVersion.getU16_ofU16, hv]; exact hleg
    · simp only [ContentType.getU8_ofU8]
    · simp only [ProtocolVersion.getU16_ofU16]
    · rw [frameBytes_length, hlen]
    · have hd : b.drop (5 + l) = body.drop l := by
        rw [hh.2.2, ← List.drop_drop]; congr 1
      rw [hd, hf]
      conv => lhs; rw [hh.2.2, ← List.take_append_drop l body]
      simp

theorem deframed_split (b : Bytes) :
    Deframed b (splitAll opaqueFront b).1 (splitAll opaqueFront b).2.1 (splitAll opaqueFront b).2.2 := by
  induction b using split_induction opaqueFront_stable with
  | hmore b h =>
    rw [splitAll_more h]
    refine ⟨rfl, by simp, by simp, fun _ => ?_⟩
    rcases opaqueFront_cases b with ⟨h5, _⟩ | ⟨t, v, l, body, _, _, h'⟩ | ⟨t, v, l, body, hh, hleg, hlt, _⟩ |
      ⟨t, v, l, body, hh, hleg, hle, h'⟩
    · exact .inl h5
    · rw [h] at h'; cases h'
    · exact .inr ⟨t, v, l, body, hh, hleg, hlt⟩
    · rw [h] at h'; cases h'
  | hbad b h =>
    rw [splitAll_bad h]
    refine ⟨rfl, by simp, fun _ => ?_, by simp⟩
    rcases opaqueFront_cases b with ⟨h5, h'⟩ | ⟨t, v, l, body, hh, hleg, _⟩ | ⟨t, v, l, body, hh, hleg, hlt, h'⟩ |
      ⟨t, v, l, body, hh, hleg, hle, h'⟩
    · rw [h] at h'; cases h'
    · exact ⟨t, v, l, body, hh, hleg⟩
    · rw [h] at h'; cases h'
    · rw [h] at h'; cases h'
  | hmsg b m k h ih =>
    obtain ⟨h1, h2, h3⟩ := opaqueFront_eq_msg h
    rw [splitAll_msg opaqueFront_stable h]
    refine ⟨?_, ?_, ih.illegal, ih.incomplete⟩
    · simp only [List.map_cons, List.flatten_cons, List.append_assoc]
      rw [← ih.split]
      exact h3
    · intro x hx
      rcases List.mem_cons.1 hx with rfl | hx
      · exact h1
      · exact ih.legal x hx

theorem opaqueFront_incomplete {r : Bytes}
    (h : r.length < 5 ∨ ∃ t v l body, HasHeader r t v l body ∧ LegalHeader t v l ∧ body.length < l) :
    opaqueFront r = .more := by
  rcases h with h | ⟨t, v, l, body, hh, hleg, hlt⟩
  · unfold opaqueFront; rw [opaque_short h]
  · unfold opaqueFront; rw [(opaque_header hh).2.1 hleg hlt]

theorem split_deframed {b : Bytes} {f : List OpaqueMessage} {d : Bool} {r : Bytes} (h : Deframed b f d r) :
    splitAll opaqueFront b = (f, d, r) := by
  induction f generalizing b with
  | nil =>
    obtain ⟨hs, _, hi, hn⟩ := h
    simp at hs
    subst hs
    cases d with
    | true =>
      obtain ⟨t, v, l, body, hh, hleg⟩ := hi rfl
      exact splitAll_bad (opaqueFront_bad hh hleg)
    | false => exact splitAll_more (opaqueFront_incomplete (hn rfl))
  | cons m f ih =>
    obtain ⟨hs, hl, hi, hn⟩ := h
    simp only [List.map_cons, List.flatten_cons, List.append_assoc] at hs
    subst hs
    have hm := hl m (by simp)
    rw [splitAll_msg opaqueFront_stable (opaqueFront_frame hm _), ← frameBytes_length, List.drop_left,
      ih ⟨rfl, fun x hx => hl x (by simp [hx]), hi, hn⟩]

/-! ### The buffer -/

theorem bufConsume_spec (d : Deframer) (k : Nat) (hk : k ≤ d.used) (hu : d.used ≤ d.buf.length) :
    (d.bufConsume k).buf.length = d.buf.length ∧ (d.bufConsume k).used = d.used - k ∧
      (d.bufConsume k).buf.take (d.bufConsume k).used = (d.buf.take d.used).drop k ∧
      (d.bufConsume k).frames = d.frames ∧ (d.bufConsume k).desynced = d.desynced := by
  unfold Deframer.bufConsume
  by_cases h1 : k < d.used
  · rw [if_pos h1]
    refine ⟨by simp; omega, rfl, ?_, rfl, rfl⟩
    simp only
    rw [List.take_append_of_le_length (by simp; omega), List.take_of_length_le (by simp; omega)]
  · rw [if_neg h1, if_pos (by omega)]
    refine ⟨rfl, by simp; omega, ?_, rfl, rfl⟩
    simp only [List.take_zero]
    rw [List.drop_of_length_le (by simp; omega)]

theorem tryDeframeOne_more {d : Deframer} (h : opaqueFront (d.buf.take d.used) = .more) :
    d.tryDeframeOne = (d, .incomplete) := by
  unfold opaqueFront at h
  unfold Deframer.tryDeframeOne
  revert h
  split <;> intro h <;> first | cases h | skip
  · next h => rw [h]
  · next h => rw [h]

theorem tryDeframeOne_bad {d : Deframer} (h : opaqueFront (d.buf.take d.used) = .bad) :
    d.tryDeframeOne = (d, .invalid) := by
  unfold opaqueFront at h
  unfold Deframer.tryDeframeOne
  generalize OpaqueMessage.read (Reader.init (d.buf.take d.used)) = x at *
  cases x with
  | ok p => obtain ⟨m, rd⟩ := p; simp at h
  | err e => cases e <;> simp at h ⊢
  | panic => rfl

theorem tryDeframeOne_msg {d : Deframer} {m : OpaqueMessage} {k : Nat}
    (h : opaqueFront (d.buf.take d.used) = .msg m k) :
    d.tryDeframeOne = ({ d with frames := d.frames ++ [m] }.bufConsume k, .valid) := by
  unfold opaqueFront at h
  unfold Deframer.tryDeframeOne
  generalize OpaqueMessage.read (Reader.init (d.buf.take d.used)) = x at *
  cases x with
  | ok p =>
    obtain ⟨m', rd⟩ := p
    simp only [FrontStep.msg.injEq] at h
    obtain ⟨rfl, rfl⟩ := h
    rfl
  | err e => cases e <;> simp at h
  | panic => simp at h

theorem deframe_spec (n : Nat) (d : Deframer) (hu : d.used ≤ d.buf.length) (hn : d.used < n) :
    (d.deframe n).frames = d.frames ++ (splitAll opaqueFront (d.buf.take d.used)).1 ∧
    (d.deframe n).desynced = (d.desynced || (splitAll opaqueFront (d.buf.take d.used)).2.1) ∧
    (d.deframe n).buf.length = d.buf.length ∧ (d.deframe n).used ≤ d.used ∧
    (d.deframe n).buf.take (d.deframe n).used = (splitAll opaqueFront (d.buf.take d.used)).2.2 := by
  induction n generalizing d with
  | zero => omega
  | succ n ih =>
    unfold Deframer.deframe
    cases h : opaqueFront (d.buf.take d.used) with
    | more => rw [tryDeframeOne_more h, splitAll_more h]; simp
    | bad => rw [tryDeframeOne_bad h, splitAll_bad h]; simp
    | msg m k =>
      obtain ⟨h1, h2, _⟩ := opaqueFront_stable.msg _ m k h
      rw [tryDeframeOne_msg h, splitAll_msg opaqueFront_stable h]
      simp only
      have hk : k ≤ d.used := by simp at h2; omega
      obtain ⟨c1, c2, c3, c4, c5⟩ := bufConsume_spec { d with frames := d.frames ++ [m] } k hk hu
      simp only at c1 c2 c3 c4 c5
      generalize ({ d with frames := d.frames ++ [m] } : Deframer).bufConsume k = d' at *
      obtain ⟨i1, i2, i3, i4, i5⟩ := ih d' (by omega) (by omega)
      rw [c3] at i1 i2 i5
      exact ⟨by rw [i1, c4]; simp, by rw [i2, c5], by omega, by omega, i5⟩

/-- The invariant of a deframer that has read `consumed` from its source. -/
structure DeframerInv (d : Deframer) (taken : List OpaqueMessage) (consumed : Bytes) : Prop where
  len : d.buf.length = maxWireSize
  used : d.used ≤ maxWireSize
  split : splitAll opaqueFront consumed = (taken ++ d.frames, d.desynced, d.buf.take d.used)

theorem deframerInv_new : DeframerInv Deframer.new [] [] := by
  refine ⟨by simp [Deframer.new], by simp [Deframer.new], ?_⟩
  rw [splitAll_more (opaqueFront_incomplete (.inl (by simp)))]
  simp [Deframer.new]

theorem deframerInv_read {d : Deframer} {taken : List OpaqueMessage} {consumed : Bytes}
    (h : DeframerInv d taken consumed) (avail : Bytes) :
    DeframerInv (d.read avail).1 taken (consumed ++ avail.take (d.read avail).2) ∧
      (d.read avail).2 = min avail.length (maxWireSize - d.used) := by
  obtain ⟨hlen, hused, hsplit⟩ := h
  have hn : (d.read avail).2 = min avail.length (maxWireSize - d.used) := by
    simp [Deframer.read, hlen]; omega
  refine ⟨?_, hn⟩
  have htake : avail.take (d.read avail).2 = avail.take (d.buf.length - d.used) := by
    rw [hn, hlen]
    by_cases hc : avail.length ≤ maxWireSize - d.used
    · rw [Nat.min_eq_left hc, List.take_length, List.take_of_length_le hc]
    · rw [Nat.min_eq_right (by omega)]
  rw [htake]
  unfold Deframer.read
  simp only
  generalize hnew : avail.take (d.buf.length - d.used) = new
  have hnl : new.length ≤ d.buf.length - d.used := by rw [← hnew]; simp; omega
  generalize hd1 : (Deframer.mk d.frames d.desynced (d.buf.take d.used ++ new ++ d.buf.drop (d.used + new.length))
    (d.used + new.length)) = d1
  have e1 : d1.buf.length = d.buf.length := by rw [← hd1]; simp; omega
  have e2 : d1.used = d.used + new.length := by rw [← hd1]
  have e3 : d1.buf.take d1.used = d.buf.take d.used ++ new := by
    rw [← hd1]
    simp only
    rw [List.take_append_of_le_length (by simp; omega), List.take_of_length_le (by simp; omega)]
  have e4 : d1.frames = d.frames := by rw [← hd1]
  have e5 : d1.desynced = d.desynced := by rw [← hd1]
  obtain ⟨i1, i2, i3, i4, i5⟩ := deframe_spec (d1.used + 1) d1 (by omega) (by omega)
  rw [← e2]
  refine ⟨by omega, by omega, ?_⟩
  rw [splitAll_append opaqueFront_stable, hsplit]
  simp only
  rw [e3] at i1 i2 i5
  by_cases hd : d.desynced = true
  · rw [if_pos hd]
    have hb := splitAll_rest opaqueFront_stable consumed
    rw [hsplit] at hb
    simp only [hd, if_true] at hb
    have hb2 := opaqueFront_stable.bad _ hb new
    rw [splitAll_bad hb2] at i1 i2 i5
    rw [i1, i2, i5, e4, e5, hd]
    simp
  · rw [if_neg hd]
    have hd' : d.desynced = false := by simpa using hd
    rw [i1, i2, i5, e4, e5, hd']
    simp

theorem deframeRun_inv (stream : Bytes) (ops : List DeframeOp) :
    ∃ n, n ≤ stream.length ∧ (deframeRun stream ops).source = stream.drop n ∧
      DeframerInv (deframeRun stream ops).d (deframeRun stream ops).taken (stream.take n) := by
  unfold deframeRun
  suffices h : ∀ (ops : List DeframeOp) (s : DeframeState) (n : Nat), n ≤ stream.length → s.source = stream.drop n →
      DeframerInv s.d s.taken (stream.take n) →
      ∃ n, n ≤ stream.length ∧ (ops.foldl DeframeState.step s).source = stream.drop n ∧
        DeframerInv (ops.foldl DeframeState.step s).d (ops.foldl DeframeState.step s).taken (stream.take n) from
    h ops _ 0 (Nat.zero_le _) (by simp) (by simpa using deframerInv_new)
  intro ops
  induction ops with
  | nil => intro s n h1 h2 h3; exact ⟨n, h1, h2, h3⟩
  | cons op ops ih =>
    intro s n h1 h2 h3
    rw [List.foldl_cons]
    cases op with
    | read size =>
      obtain ⟨i1, i2⟩ := deframerInv_read h3 (s.source.take size)
      have hk : (s.d.read (s.source.take size)).2 ≤ stream.length - n := by
        rw [i2, h2]; simp; omega
      refine ih _ (n + (s.d.read (s.source.take size)).2) (by omega) ?_ ?_
      · simp only [DeframeState.step]
        rw [h2, List.drop_drop]
      · simp only [DeframeState.step]
        have hle : (s.d.read (s.source.take size)).2 ≤ size := by rw [i2]; simp; omega
        rw [List.take_take, Nat.min_eq_left hle] at i1
        rw [List.take_add, ← h2]
        exact i1
    | pop =>
      refine ih _ n h1 ?_ ?_
      · simp only [DeframeState.step]
        cases s.d.frames <;> simpa using h2
      · simp only [DeframeState.step]
        cases hf : s.d.frames with
        | nil => exact h3
        | cons m ms =>
          obtain ⟨a, b, c⟩ := h3
          refine ⟨a, b, ?_⟩
          rw [c, hf]
          simp

end Tlsn
