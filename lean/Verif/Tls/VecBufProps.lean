import Verif.Tls.VecBuf

/-! # Byte buffers (C40) -/

namespace Tlsn

/-- The operations on a buffer. -/
inductive VecBufOp where
  | append (bytes : Bytes)
  | appendLimited (bytes : Bytes)
  | pop
  | read (room : Nat)
  | writeTo (accept : Nat)

/-- A buffer, what was accepted and what has been taken out, in order. -/
structure VecBufRun where
  buf : VecBuf
  accepted : Bytes
  taken : Bytes

/-- One operation; what an append reports as accepted is recorded as such. -/
def VecBufRun.step (s : VecBufRun) : VecBufOp → VecBufRun
  | .append bytes => ⟨(s.buf.append bytes).1, s.accepted ++ bytes.take (s.buf.append bytes).2, s.taken⟩
  | .appendLimited bytes =>
    ⟨(s.buf.appendLimited bytes).1, s.accepted ++ bytes.take (s.buf.appendLimited bytes).2, s.taken⟩
  | .pop => ⟨s.buf.pop.1, s.accepted, s.taken ++ s.buf.pop.2.getD []⟩
  | .read room => ⟨(s.buf.read room).1, s.accepted, s.taken ++ (s.buf.read room).2⟩
  | .writeTo accept => ⟨(s.buf.writeTo accept).1, s.accepted, s.taken ++ (s.buf.writeTo accept).2⟩

/-- A history. -/
def vecBufRun (limit : Option Nat) (ops : List VecBufOp) : VecBufRun :=
  ops.foldl VecBufRun.step ⟨VecBuf.new limit, [], []⟩

theorem consumeChunks_flatten (cs : List Bytes) (used : Nat) :
    (consumeChunks cs used).flatten = cs.flatten.drop used := by
  induction cs generalizing used with
  | nil => simp [consumeChunks]
  | cons c cs ih =>
    simp only [consumeChunks]
    split
    · next h => rw [List.flatten_cons, List.flatten_cons, List.drop_append_of_le_length (by omega)]
    · next h =>
      rw [ih, List.flatten_cons, List.drop_append]
      rw [List.drop_of_length_le (l := c) (by omega), List.nil_append]

theorem consumeChunks_nonempty (cs : List Bytes) (used : Nat) (h : ∀ c ∈ cs, c ≠ []) :
    ∀ c ∈ consumeChunks cs used, c ≠ [] := by
  induction cs generalizing used with
  | nil => simp [consumeChunks]
  | cons c cs ih =>
    simp only [consumeChunks]
    split
    · next hlt =>
      intro x hx
      rcases List.mem_cons.1 hx with rfl | hx
      · intro he
        have := congrArg List.length he
        simp at this; omega
      · exact h x (by simp [hx])
    · exact ih _ fun x hx => h x (by simp [hx])

theorem consumeChunks_full (c : Bytes) (cs : List Bytes) (h : ∀ x ∈ cs, x ≠ []) :
    consumeChunks (c :: cs) c.length = cs := by
  simp only [consumeChunks, Nat.lt_irrefl, if_false, Nat.sub_self]
  cases cs with
  | nil => rfl
  | cons d ds =>
    have : 0 < d.length := List.length_pos_iff.2 (h d (by simp))
    simp [consumeChunks, this]

theorem readChunks_spec (n : Nat) (cs : List Bytes) (room : Nat) (h : ∀ c ∈ cs, c ≠ []) (hn : cs.length < n) :
    (readChunks n cs room).2 = cs.flatten.take room ∧ (readChunks n cs room).1.flatten = cs.flatten.drop room ∧
      ∀ c ∈ (readChunks n cs room).1, c ≠ [] := by
  induction n generalizing cs room with
  | zero => omega
  | succ n ih =>
    simp only [readChunks]
    split
    · next h0 => subst h0; simpa using h
    · next h0 =>
      cases cs with
      | nil => simp
      | cons c cs =>
        simp only
        have hcs : ∀ x ∈ cs, x ≠ [] := fun x hx => h x (by simp [hx])
        by_cases hle : c.length ≤ room
        · rw [Nat.min_eq_left hle, consumeChunks_full c cs hcs]
          obtain ⟨i1, i2, i3⟩ := ih cs (room - c.length) hcs (by simp at hn; omega)
          refine ⟨?_, ?_, i3⟩
          · rw [i1, List.take_length, List.flatten_cons, List.take_append, List.take_of_length_le hle]
          · rw [i2, List.flatten_cons, List.drop_append, List.drop_of_length_le hle, List.nil_append]
        · rw [Nat.min_eq_right (by omega), Nat.sub_self]
          have hz : ∀ (m : Nat) (l : List Bytes), readChunks m l 0 = (l, []) := by
            intro m l; cases m <;> simp [readChunks]
          rw [hz]
          refine ⟨?_, ?_, consumeChunks_nonempty _ _ h⟩
          · simp only [List.append_nil, List.flatten_cons]
            rw [List.take_append_of_le_length (by omega)]
          · exact consumeChunks_flatten _ _

theorem vecBuf_len (b : VecBuf) : b.len = b.chunks.flatten.length := by
  unfold VecBuf.len
  suffices h : ∀ (cs : List Bytes) (n : Nat), cs.foldl (fun n c => n + c.length) n = n + cs.flatten.length by
    rw [h, Nat.zero_add]
  intro cs
  induction cs with
  | nil => simp
  | cons c cs ih => intro n; rw [List.foldl_cons, ih, List.flatten_cons, List.length_append]; omega

theorem append_flatten (b : VecBuf) (bytes : Bytes) :
    (b.append bytes).1.chunks.flatten = b.chunks.flatten ++ bytes := by
  unfold VecBuf.append
  cases bytes with
  | nil => simp
  | cons x xs => simp

theorem applyLimit_le (b : VecBuf) (n : Nat) : b.applyLimit n ≤ n := by
  unfold VecBuf.applyLimit
  split
  · exact Nat.min_le_left _ _
  · exact Nat.le_refl _

/-- The effect of one operation on the content. -/
theorem vecBuf_step (s : VecBufRun) (op : VecBufOp) (h : ∀ c ∈ s.buf.chunks, c ≠ []) :
    (∀ c ∈ (s.step op).buf.chunks, c ≠ []) ∧ (s.step op).buf.limit = s.buf.limit ∧
      (s.accepted = s.taken ++ s.buf.chunks.flatten →
        (s.step op).accepted = (s.step op).taken ++ (s.step op).buf.chunks.flatten) := by
  cases op with
  | append bytes =>
    refine ⟨?_, ?_, fun he => ?_⟩
    · simp only [VecBufRun.step, VecBuf.append]
      split
      · exact h
      · next hne =>
        intro c hc
        rcases List.mem_append.1 hc with hc | hc
        · exact h c hc
        · simp at hc; subst hc; simpa using hne
    · simp only [VecBufRun.step, VecBuf.append]; split <;> rfl
    · simp only [VecBufRun.step, append_flatten]
      rw [show (s.buf.append bytes).2 = bytes.length from rfl, List.take_length, he, List.append_assoc]
  | appendLimited bytes =>
    refine ⟨?_, ?_, fun he => ?_⟩
    · simp only [VecBufRun.step, VecBuf.appendLimited, VecBuf.append]
      split
      · exact h
      · next hne =>
        intro c hc
        rcases List.mem_append.1 hc with hc | hc
        · exact h c hc
        · simp only [List.mem_singleton] at hc; subst hc; simpa using hne
    · simp only [VecBufRun.step, VecBuf.appendLimited, VecBuf.append]; split <;> rfl
    · simp only [VecBufRun.step, VecBuf.appendLimited, append_flatten]
      rw [he, List.append_assoc]
  | pop =>
    simp only [VecBufRun.step, VecBuf.pop]
    cases hc : s.buf.chunks with
    | nil => simp [hc]
    | cons c cs =>
      refine ⟨fun x hx => h x (by simp [hc, hx]), rfl, fun he => ?_⟩
      simp only [Option.getD_some]
      rw [he]
      simp
  | read room =>
    obtain ⟨i1, i2, i3⟩ := readChunks_spec (s.buf.chunks.length + 1) s.buf.chunks room h (Nat.lt_succ_self _)
    refine ⟨i3, rfl, fun he => ?_⟩
    simp only [VecBufRun.step, VecBuf.read]
    rw [i1, i2, he, List.append_assoc, List.take_append_drop]
  | writeTo accept =>
    simp only [VecBufRun.step, VecBuf.writeTo]
    split
    · simp; exact h
    · refine ⟨consumeChunks_nonempty _ _ h, rfl, fun he => ?_⟩
      simp only [consumeChunks_flatten]
      have hx : ∃ r, s.buf.chunks.flatten = (s.buf.chunks.take 64).flatten ++ r :=
        ⟨(s.buf.chunks.drop 64).flatten, by rw [← List.flatten_append, List.take_append_drop]⟩
      obtain ⟨r, hr⟩ := hx
      generalize (s.buf.chunks.take 64).flatten = o at *
      rw [he, hr, List.append_assoc]
      congr 1
      rw [List.drop_append_of_le_length (Nat.min_le_right _ _), ← List.append_assoc, List.take_append_drop]

theorem vecBufRun_inv (limit : Option Nat) (ops : List VecBufOp) :
    (∀ c ∈ (vecBufRun limit ops).buf.chunks, c ≠ []) ∧ (vecBufRun limit ops).buf.limit = limit ∧
      (vecBufRun limit ops).accepted = (vecBufRun limit ops).taken ++ (vecBufRun limit ops).buf.chunks.flatten := by
  unfold vecBufRun
  suffices h : ∀ (ops : List VecBufOp) (s : VecBufRun), (∀ c ∈ s.buf.chunks, c ≠ []) → s.buf.limit = limit →
      s.accepted = s.taken ++ s.buf.chunks.flatten →
      (∀ c ∈ (ops.foldl VecBufRun.step s).buf.chunks, c ≠ []) ∧ (ops.foldl VecBufRun.step s).buf.limit = limit ∧
      (ops.foldl VecBufRun.step s).accepted =
        (ops.foldl VecBufRun.step s).taken ++ (ops.foldl VecBufRun.step s).buf.chunks.flatten from
    h ops _ (by simp [VecBuf.new]) rfl (by simp [VecBuf.new])
  intro ops
  induction ops with
  | nil => intro s h1 h2 h3; exact ⟨h1, h2, h3⟩
  | cons op ops ih =>
    intro s h1 h2 h3
    obtain ⟨a, b, c⟩ := vecBuf_step s op h1
    exact ih _ a (b.trans h2) (c h3)

/-- **C40** After any history, the bytes that were accepted are the bytes that were taken out, in the same order, and
then the bytes that a sufficiently large read returns next; `len` counts the latter and `is_empty` says whether there
are any. -/
theorem C40_fifo (limit : Option Nat) (ops : List VecBufOp) (room : Nat)
    (hroom : (vecBufRun limit ops).buf.len ≤ room) :
    (vecBufRun limit ops).accepted = (vecBufRun limit ops).taken ++ ((vecBufRun limit ops).buf.read room).2 ∧
    (vecBufRun limit ops).buf.len = (vecBufRun limit ops).accepted.length - (vecBufRun limit ops).taken.length ∧
    ((vecBufRun limit ops).buf.isEmpty = true ↔ (vecBufRun limit ops).accepted = (vecBufRun limit ops).taken) := by
  obtain ⟨h1, h2, h3⟩ := vecBufRun_inv limit ops
  generalize vecBufRun limit ops = s at *
  have hl := vecBuf_len s.buf
  obtain ⟨i1, -, -⟩ := readChunks_spec (s.buf.chunks.length + 1) s.buf.chunks room h1 (Nat.lt_succ_self _)
  refine ⟨?_, ?_, ?_⟩
  · simp only [VecBuf.read]
    rw [i1, List.take_of_length_le (by omega), h3]
  · rw [hl, h3]; simp
  · rw [h3]
    simp only [VecBuf.isEmpty, List.isEmpty_iff]
    constructor
    · intro h; simp [h]
    · intro h
      have hf : s.buf.chunks.flatten = [] := by simpa using h
      cases hc : s.buf.chunks with
      | nil => rfl
      | cons c cs =>
        rw [hc] at hf
        simp only [List.flatten_cons, List.append_eq_nil_iff] at hf
        exact absurd hf.1 (h1 c (by simp [hc]))

/-- **C40** After any history, an operation that takes bytes out delivers as much as it can: a read fills its buffer or
empties the queue, a writer gets at least one byte if it accepts any, and a chunk that is popped is not empty. -/
theorem C40_delivers (limit : Option Nat) (ops : List VecBufOp) (n : Nat) :
    ((vecBufRun limit ops).buf.read n).2.length = min n (vecBufRun limit ops).buf.len ∧
    (0 < n → 0 < (vecBufRun limit ops).buf.len →
      0 < ((vecBufRun limit ops).buf.writeTo n).2.length ∧ ((vecBufRun limit ops).buf.writeTo n).2.length ≤ n) ∧
    (0 < (vecBufRun limit ops).buf.len → ∃ c, (vecBufRun limit ops).buf.pop.2 = some c ∧ c ≠ []) := by
  obtain ⟨h1, h2, h3⟩ := vecBufRun_inv limit ops
  generalize vecBufRun limit ops = s at *
  have hl := vecBuf_len s.buf
  obtain ⟨i1, -, -⟩ := readChunks_spec (s.buf.chunks.length + 1) s.buf.chunks n h1 (Nat.lt_succ_self _)
  refine ⟨?_, ?_, ?_⟩
  · simp only [VecBuf.read]
    rw [i1, hl]
    simp
  · intro hn hpos
    cases hc : s.buf.chunks with
    | nil => rw [hc] at hl; simp at hl; omega
    | cons c cs =>
      have : 0 < c.length := List.length_pos_iff.2 (h1 c (by simp [hc]))
      have he : s.buf.isEmpty = false := by simp [VecBuf.isEmpty, hc]
      simp only [VecBuf.writeTo, he, Bool.false_eq_true, if_false]
      rw [hc, List.take_succ_cons, List.flatten_cons]
      generalize (List.take 63 cs).flatten = o
      rw [List.length_take, List.length_append]
      omega
  · intro hpos
    cases hc : s.buf.chunks with
    | nil => rw [hc] at hl; simp at hl; omega
    | cons c cs => exact ⟨c, by simp [VecBuf.pop, hc], h1 c (by simp [hc])⟩

/-- **C40** After any history, a limited append takes the prefix that fits: everything if there is no limit or enough
room, otherwise up to the limit; it never makes the buffer exceed the limit, and takes nothing exactly when the buffer
is full. -/
theorem C40_limit (limit : Option Nat) (ops : List VecBufOp) (bytes : Bytes) :
    ((vecBufRun limit ops).buf.appendLimited bytes).1.len =
      (vecBufRun limit ops).buf.len + ((vecBufRun limit ops).buf.appendLimited bytes).2 ∧
    (limit = none → ((vecBufRun limit ops).buf.appendLimited bytes).2 = bytes.length) ∧
    (∀ l, limit = some l →
      ((vecBufRun limit ops).buf.appendLimited bytes).2 = min bytes.length (l - (vecBufRun limit ops).buf.len) ∧
      ((vecBufRun limit ops).buf.len ≤ l → ((vecBufRun limit ops).buf.appendLimited bytes).1.len ≤ l)) ∧
    (bytes ≠ [] → ((vecBufRun limit ops).buf.isFull = true ↔
      ((vecBufRun limit ops).buf.appendLimited bytes).2 = 0)) := by
  obtain ⟨h1, h2, h3⟩ := vecBufRun_inv limit ops
  generalize vecBufRun limit ops = s at *
  have e1 : (s.buf.appendLimited bytes).1.len = s.buf.len + (s.buf.appendLimited bytes).2 := by
    rw [vecBuf_len, vecBuf_len]
    simp only [VecBuf.appendLimited, append_flatten, List.length_append, List.length_take]
    have := applyLimit_le s.buf bytes.length
    omega
  refine ⟨e1, ?_, ?_, ?_⟩
  · intro hn; simp [VecBuf.appendLimited, VecBuf.applyLimit, h2, hn]
  · intro l hlim
    have e2 : (s.buf.appendLimited bytes).2 = min bytes.length (l - s.buf.len) := by
      simp [VecBuf.appendLimited, VecBuf.applyLimit, h2, hlim]
    refine ⟨e2, fun hle => ?_⟩
    rw [e1, e2]; omega
  · intro hne
    have : 0 < bytes.length := List.length_pos_iff.2 hne
    simp only [VecBuf.appendLimited, VecBuf.applyLimit, VecBuf.isFull, h2]
    cases limit with
    | none => simp; exact hne
    | some l => simp only [decide_eq_true_eq]; omega

/-- Example for C40: a limit of four bytes; two chunks are read across their boundary and the rest is written out. -/
example :
    let r := vecBufRun (some 4) [.appendLimited [1, 2, 3], .appendLimited [4, 5, 6], .read 2, .append [7, 8], .writeTo 3]
    r.accepted = [1, 2, 3, 4, 7, 8] ∧ r.taken = [1, 2, 3, 4, 7] ∧ r.buf.chunks = [[8]] ∧ r.buf.isFull = false := by
  decide

end Tlsn
