import Verif.Auth.Layout

/-! # The plaintext proof: what acceptance means -/

namespace Tlsn

/-! ## Assignment -/

theorem assign_spec {vm : ZkVm} {v : VmVec} {b : Bytes} (hl : b.length = v.len)
    (hv : v.addr + v.len ≤ vm.mem.length) :
    ∃ vm', vm.assignE v b = .ok vm' ∧ vm'.mem.length = vm.mem.length ∧ vm'.ops = vm.ops ∧
      vm'.marks = vm.marks ∧
      ∀ a, vm'.mem[a]? = if v.addr ≤ a ∧ a < v.addr + v.len then b[a - v.addr]? else vm.mem[a]? := by
  have hw : writeAt vm.mem v.addr b =
      some (vm.mem.take v.addr ++ b ++ vm.mem.drop (v.addr + b.length)) := by
    unfold writeAt; rw [if_pos (by omega)]
  refine ⟨{ vm with mem := vm.mem.take v.addr ++ b ++ vm.mem.drop (v.addr + b.length) }, ?_,
    writeAt_length hw, rfl, rfl, ?_⟩
  · simp only [ZkVm.assignE, ZkVm.assign]
    rw [if_neg (by omega), hw]; rfl
  · intro a
    rw [writeAt_getElem? hw, hl]

/-- The cells assigned by a map get the plaintext, the others keep their value. -/
theorem assignAll_spec (p : Bytes) (m : RangeMap) (vm : ZkVm) (hin : InMem vm (m.map (·.2)))
    (hp : ∀ e ∈ m, e.1 + e.2.len ≤ p.length) :
    ∃ vm', assignAll p m vm = .ok vm' ∧ vm'.mem.length = vm.mem.length ∧ vm'.ops = vm.ops ∧
      vm'.marks = vm.marks ∧
      ∀ a, (∃ e ∈ m, (e.2.addr ≤ a ∧ a < e.2.addr + e.2.len) ∧ vm'.mem[a]? = p[e.1 + (a - e.2.addr)]?) ∨
        ((∀ e ∈ m, ¬ (e.2.addr ≤ a ∧ a < e.2.addr + e.2.len)) ∧ vm'.mem[a]? = vm.mem[a]?) := by
  induction m generalizing vm with
  | nil => exact ⟨vm, rfl, rfl, rfl, rfl, fun a => .inr ⟨by simp, rfl⟩⟩
  | cons e t ih =>
    obtain ⟨i, v⟩ := e
    have hpe := hp (i, v) (by simp)
    simp only at hpe
    have hs := slice_isSome (l := p) (lo := i) (hi := i + v.len) (by omega) hpe
    have hv := hin v (by simp)
    obtain ⟨vm1, h1, h2, h3, h4, h5⟩ := assign_spec (vm := vm) (v := v)
      (b := (p.take (i + v.len)).drop i) (by simp; omega) hv
    obtain ⟨vm2, g1, g2, g3, g4, g5⟩ := ih vm1 (by
      intro w hw; rw [h2]; exact hin w (by simp at hw ⊢; exact .inr hw)) (fun e he => hp e (by simp [he]))
    refine ⟨vm2, ?_, by omega, by rw [g3, h3], by rw [g4, h4], ?_⟩
    · simp only [assignAll, hs, h1, Outcome.bind_ok, g1]
    · intro a
      rcases g5 a with ⟨e, he, ha, h⟩ | ⟨hno, h⟩
      · exact .inl ⟨e, by simp [he], ha, h⟩
      · by_cases hva : v.addr ≤ a ∧ a < v.addr + v.len
        · left
          refine ⟨(i, v), by simp, hva, ?_⟩
          rw [h, h5, if_pos hva]
          have := slice_getElem? hs (a - v.addr)
          rw [this, if_pos (by omega)]
        · right
          refine ⟨?_, ?_⟩
          · intro e he
            rcases List.mem_cons.1 he with rfl | he
            · exact hva
            · exact hno e he
          · rw [h, h5, if_neg hva]

@[simp] theorem markAll_mem (vm : ZkVm) (vis : Vis) (m : RangeMap) : (markAll vm vis m).mem = vm.mem := by
  unfold markAll
  induction m generalizing vm with
  | nil => rfl
  | cons e t ih => rw [List.foldl_cons, ih]; rfl

@[simp] theorem markAll_ops (vm : ZkVm) (vis : Vis) (m : RangeMap) : (markAll vm vis m).ops = vm.ops := by
  unfold markAll
  induction m generalizing vm with
  | nil => rfl
  | cons e t ih => rw [List.foldl_cons, ih]; rfl

@[simp] theorem markAll_marks (vm : ZkVm) (vis : Vis) (m : RangeMap) :
    (markAll vm vis m).marks = vm.marks ++ m.map fun e => (e.2, vis) := by
  unfold markAll
  induction m generalizing vm with
  | nil => simp
  | cons e t ih => rw [List.foldl_cons, ih]; simp [ZkVm.mark]

@[simp] theorem decodeAll_mem (vm : ZkVm) (vs : List VmVec) : (decodeAll vm vs).1.mem = vm.mem := by
  induction vs generalizing vm with
  | nil => rfl
  | cons v t ih => simp only [decodeAll]; rw [ih]; rfl

theorem decodeAll_values (vm : ZkVm) (vs : List VmVec) : (decodeAll vm vs).2 = vs.map vm.read := by
  induction vs generalizing vm with
  | nil => rfl
  | cons v t ih => simp only [decodeAll]; rw [ih]; rfl

@[simp] theorem decodeAll_ops (vm : ZkVm) (vs : List VmVec) :
    (decodeAll vm vs).1.ops = vm.ops ++ vs.map .decode := by
  induction vs generalizing vm with
  | nil => simp [decodeAll]
  | cons v t ih => simp only [decodeAll]; rw [ih]; simp [ZkVm.decode]

@[simp] theorem decodeAll_marks (vm : ZkVm) (vs : List VmVec) : (decodeAll vm vs).1.marks = vm.marks := by
  induction vs generalizing vm with
  | nil => rfl
  | cons v t ih => simp only [decodeAll]; rw [ih]; rfl

/-! ## Revealing with the key -/

theorem aesCtr_byte (aes : AesFn) (key iv nonce text : Bytes) (hn : nonce.length = 8) :
    ∃ out, aesCtrApply aes key iv nonce text = some out ∧ out.length = text.length ∧
      ∀ j, out[j]? = (text[j]?).map fun b =>
        b ^^^ ((ksBlock aes key iv nonce (j / 16))[j % 16]?).getD 0 := by
  refine ⟨_, by rw [aesCtrApply, if_neg (by omega)], by simp, ?_⟩
  intro j
  rw [List.getElem?_mapIdx]
  congr 1
  funext b
  have : nonce.take 8 = nonce := List.take_of_length_le (by omega)
  rw [this, ksBlock, List.getElem?_eq_getElem (by simp; omega)]
  simp

/-- Acceptance with the key: every byte of the records decrypts. -/
theorem verifyWithKey_spec (aes : AesFn) (key iv p c : Bytes) (recs : List RecordParams) (pos : Nat)
    (hn : ∀ r ∈ recs, r.nonce.length = 8) (hp : pos + (recs.map (·.len)).sum ≤ p.length)
    (hc : pos + (recs.map (·.len)).sum ≤ c.length) :
    (verifyWithKey aes key iv p c pos recs = .ok () ∧
      ∀ x, pos ≤ x → x < pos + (recs.map (·.len)).sum →
        c[x]? = (p[x]?).map fun b => b ^^^ (ksAt aes key iv recs (x - pos)).getD 0) ∨
    (verifyWithKey aes key iv p c pos recs = .err .invalidPlaintext ∧
      ∃ x, pos ≤ x ∧ x < pos + (recs.map (·.len)).sum ∧
        c[x]? ≠ (p[x]?).map fun b => b ^^^ (ksAt aes key iv recs (x - pos)).getD 0) := by
  induction recs generalizing pos with
  | nil => left; exact ⟨rfl, by simp; omega⟩
  | cons r t ih =>
    simp only [List.map_cons, List.sum_cons] at hp hc
    simp only [verifyWithKey]
    have hs := slice_isSome (l := p) (lo := pos) (hi := pos + r.len) (by omega) (by omega)
    have hsc := slice_isSome (l := c) (lo := pos) (hi := pos + r.len) (by omega) (by omega)
    rw [hs]
    simp only
    obtain ⟨out, h1, h2, h3⟩ := aesCtr_byte aes key iv r.nonce ((p.take (pos + r.len)).drop pos)
      (hn r (by simp))
    rw [h1, hsc]
    simp only
    have hout : ∀ j, j < r.len → out[j]? = (p[pos + j]?).map fun b =>
        b ^^^ (ksAt aes key iv (r :: t) (pos + j - pos)).getD 0 := by
      intro j hj
      rw [h3, slice_getElem? hs, if_pos (by omega)]
      have : pos + j - pos = j := by omega
      rw [this]
      simp only [ksAt]
      rw [if_pos hj]
    by_cases heq : out = (c.take (pos + r.len)).drop pos
    · rw [if_neg (by simpa using heq)]
      have hfirst : ∀ x, pos ≤ x → x < pos + r.len →
          c[x]? = (p[x]?).map fun b => b ^^^ (ksAt aes key iv (r :: t) (x - pos)).getD 0 := by
        intro x hx hx2
        have h4 := hout (x - pos) (by omega)
        have e : pos + (x - pos) = x := by omega
        rw [e] at h4
        rw [← h4, heq, slice_getElem? hsc, if_pos (by omega), e]
      have hks : ∀ x, pos + r.len ≤ x →
          ksAt aes key iv (r :: t) (x - pos) = ksAt aes key iv t (x - (pos + r.len)) := by
        intro x hx
        simp only [ksAt]
        rw [if_neg (by omega)]
        congr 1; omega
      rcases ih (pos + r.len) (fun q hq => hn q (by simp [hq])) (by omega) (by omega) with
        ⟨i1, i2⟩ | ⟨i1, x, i2, i3, i4⟩
      · left
        refine ⟨i1, ?_⟩
        intro x hx hx2
        simp only [List.map_cons, List.sum_cons] at hx2
        by_cases hxr : x < pos + r.len
        · exact hfirst x hx hxr
        · rw [hks x (by omega)]
          exact i2 x (by omega) (by omega)
      · right
        refine ⟨i1, x, by omega, by simp only [List.map_cons, List.sum_cons]; omega, ?_⟩
        rw [hks x i2]; exact i4
    · right
      rw [if_pos (by simpa using heq)]
      refine ⟨rfl, ?_⟩
      have : ∃ j, j < r.len ∧ out[j]? ≠ ((c.take (pos + r.len)).drop pos)[j]? := by
        refine Classical.byContradiction fun hno => heq ?_
        apply List.ext_getElem?
        intro j
        by_cases hj : j < r.len
        · exact Classical.byContradiction fun h => hno ⟨j, hj, h⟩
        · have e1 := slice_length hs
          have e2 := slice_length hsc
          rw [List.getElem?_eq_none (by omega), List.getElem?_eq_none (by omega)]
      obtain ⟨j, hj, hne⟩ := this
      refine ⟨pos + j, by omega, by simp only [List.map_cons, List.sum_cons]; omega, ?_⟩
      rw [slice_getElem? hsc, if_pos (by omega), hout j hj] at hne
      exact fun h => hne h.symm

end Tlsn
