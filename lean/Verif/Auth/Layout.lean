import Verif.Auth.Lemmas

/-! # Memory layout of the authenticated plaintext -/

namespace Tlsn

/-- The references of ranges stored one after the other from address `a`. -/
def layout (a : Nat) : List Rng → RangeMap
  | [] => []
  | r :: rs => (r.1, ⟨a, r.2 - r.1⟩) :: layout (a + (r.2 - r.1)) rs

/-- Total length. -/
def totalLen (rs : List Rng) : Nat := (rs.map fun r => r.2 - r.1).sum

theorem totalLen_cons (r : Rng) (rs : List Rng) : totalLen (r :: rs) = (r.2 - r.1) + totalLen rs := rfl

theorem positions_length (rs : List Rng) : (positions rs).length = totalLen rs := by
  simp [positions, totalLen, List.length_flatMap]

theorem chunks_eq (v : VmVec) (rs : List Rng) (pos : Nat) (h : pos + totalLen rs ≤ v.len) :
    chunks v rs pos = some (layout (v.addr + pos) rs) := by
  induction rs generalizing pos with
  | nil => rfl
  | cons r t ih =>
    rw [totalLen_cons] at h
    have hg : v.get pos (pos + (r.2 - r.1)) = some ⟨v.addr + pos, r.2 - r.1⟩ := by
      unfold VmVec.get
      rw [if_pos (by omega)]
      simp
    simp only [chunks, hg, layout]
    rw [ih (pos + (r.2 - r.1)) (by omega)]
    simp [Nat.add_assoc]

theorem mem_layout {a : Nat} {rs : List Rng} {e : Nat × VmVec} (h : e ∈ layout a rs) :
    ∃ r ∈ rs, e.1 = r.1 ∧ e.2.len = r.2 - r.1 ∧ a ≤ e.2.addr ∧ e.2.addr + e.2.len ≤ a + totalLen rs := by
  induction rs generalizing a with
  | nil => simp [layout] at h
  | cons r t ih =>
    rw [totalLen_cons]
    rcases List.mem_cons.1 h with rfl | h
    · exact ⟨r, by simp, rfl, rfl, Nat.le_refl _, by simp only; omega⟩
    · obtain ⟨q, hq, h1, h2, h3, h4⟩ := ih h
      exact ⟨q, by simp [hq], h1, h2, by omega, by omega⟩

theorem layout_of_mem {a : Nat} {rs : List Rng} {r : Rng} (h : r ∈ rs) :
    ∃ e ∈ layout a rs, e.1 = r.1 ∧ e.2.len = r.2 - r.1 := by
  induction rs generalizing a with
  | nil => cases h
  | cons q t ih =>
    rcases List.mem_cons.1 h with rfl | h
    · exact ⟨_, by simp [layout]; exact .inl rfl, rfl, rfl⟩
    · obtain ⟨e, he, h1⟩ := ih (a := a + (q.2 - q.1)) h
      exact ⟨e, by simp [layout, he], h1⟩

theorem layout_good (a : Nat) {rs : List Rng} (h : Canon rs) : (layout a rs).Good := by
  constructor
  · induction rs generalizing a with
    | nil => simp [layout]
    | cons r t ih =>
      rw [layout, List.pairwise_cons]
      refine ⟨?_, ih _ h.tail⟩
      intro f hf
      obtain ⟨q, hq, h1, _⟩ := mem_layout hf
      have := h.head_lt q hq
      have := h.head
      simp only; omega
  · intro e he
    obtain ⟨r, hr, _, h2, _⟩ := mem_layout he
    have := h.nonempty r hr
    omega

theorem chunkMap_eq (v : VmVec) {rs : List Rng} (hc : Canon rs) (h : totalLen rs ≤ v.len) :
    chunkMap v rs = some (layout v.addr rs) := by
  unfold chunkMap
  rw [chunks_eq v rs 0 (by omega)]
  exact RangeMap.fromIter_some (fun _ _ => Nat.zero_le _) (layout_good _ hc).1

theorem layout_keys {a : Nat} {rs : List Rng} (h : ∀ r ∈ rs, r.1 < r.2) : (layout a rs).keys = rs := by
  induction rs generalizing a with
  | nil => rfl
  | cons r t ih =>
    have := ih (a := a + (r.2 - r.1)) fun q hq => h q (by simp [hq])
    have h1 := h r (by simp)
    simp only [RangeMap.keys, layout, List.map_cons] at this ⊢
    rw [this]
    have : r.1 + (r.2 - r.1) = r.2 := by omega
    rw [this]

theorem ofRanges_ranges (s : RangeSet) : RangeSet.ofRanges s.ranges = s :=
  RangeSet.ext fun i => by rw [RangeSet.mem_ofRanges]; exact Iff.rfl

theorem totalLen_ranges (s : RangeSet) : totalLen s.ranges = s.len := rfl

theorem layout_isEmpty {a : Nat} {rs : List Rng} : (layout a rs).isEmpty = rs.isEmpty := by
  cases rs <;> rfl

theorem len_zero_iff (s : RangeSet) : s.len = 0 ↔ s.ranges = [] := by
  constructor
  · intro h
    cases hr : s.ranges with
    | nil => rfl
    | cons r t =>
      have h1 := s.canon.nonempty r (by simp [hr])
      have h2 : totalLen (r :: t) = 0 := by rw [← hr]; exact h
      rw [totalLen_cons] at h2; omega
  · intro h; simp [RangeSet.len, h]

/-- The vectors of a layout are consecutive, so together they hold a piece of memory. -/
theorem readAll_layout (vm : ZkVm) (a : Nat) (rs : List Rng) (h : a + totalLen rs ≤ vm.mem.length) :
    readAll vm ((layout a rs).map (·.2)) = (vm.mem.drop a).take (totalLen rs) := by
  induction rs generalizing a with
  | nil => simp [layout, readAll, totalLen]
  | cons r t ih =>
    rw [totalLen_cons] at h ⊢
    have := ih (a + (r.2 - r.1)) (by omega)
    simp only [readAll, layout, List.map_cons, List.flatMap_cons] at this ⊢
    rw [this]
    simp only [ZkVm.read]
    rw [List.take_add, List.drop_drop]

/-- Position number `j` of the ranges is stored at address `a + j`. -/
theorem addrAt_layout (a : Nat) {rs : List Rng} (hc : Canon rs) (j x : Nat)
    (h : (positions rs)[j]? = some x) : (layout a rs).addrAt x = some (a + j) := by
  have hg := layout_good a hc
  induction rs generalizing a j with
  | nil => simp at h
  | cons r t ih =>
    rw [positions_cons, List.getElem?_append] at h
    have hr := hc.head
    simp only [List.length_range'] at h
    split at h
    · rename_i hj
      rw [List.getElem?_range' hj] at h
      simp at h; subst h
      rw [RangeMap.addrAt_of_mem hg (e := (r.1, ⟨a, r.2 - r.1⟩)) (by simp [layout]) (by simp only; omega)]
      simp only [Option.some.injEq]; omega
    · have h1 := ih (a + (r.2 - r.1)) hc.tail (j - (r.2 - r.1)) h (layout_good _ hc.tail)
      obtain ⟨e, he, hx, h2⟩ := RangeMap.addrAt_some h1
      rw [RangeMap.addrAt_of_mem hg (e := e) (by simp [layout, he]) hx, ← h2]
      simp only [Option.some.injEq]; omega

theorem mem_positions {s : RangeSet} {x : Nat} : x ∈ positions s.ranges ↔ x ∈ s := RangeSet.mem_values

theorem addrAt_layout_mem (a : Nat) (s : RangeSet) {x : Nat} (h : x ∈ s) :
    ∃ j, (positions s.ranges)[j]? = some x ∧ j < totalLen s.ranges ∧
      (layout a s.ranges).addrAt x = some (a + j) := by
  rw [← mem_positions] at h
  obtain ⟨j, hj⟩ := List.mem_iff_getElem?.1 h
  refine ⟨j, hj, ?_, addrAt_layout a s.canon j x hj⟩
  rw [← positions_length]
  rcases List.getElem?_eq_some_iff.1 hj with ⟨h, _⟩
  exact h

theorem addrAt_layout_inv (a : Nat) (s : RangeSet) {x b : Nat} (h : (layout a s.ranges).addrAt x = some b) :
    x ∈ s := by
  obtain ⟨e, he, hx, _⟩ := RangeMap.addrAt_some h
  obtain ⟨r, hr, h1, h2, _⟩ := mem_layout he
  exact ⟨r, hr, by omega, by have := s.canon.nonempty r hr; omega⟩

theorem positions_inj (s : RangeSet) {i j x : Nat} (h1 : (positions s.ranges)[i]? = some x)
    (h2 : (positions s.ranges)[j]? = some x) : i = j := by
  have hs : (positions s.ranges).Pairwise (· < ·) := RangeSet.values_sorted s
  rcases List.getElem?_eq_some_iff.1 h1 with ⟨hi, e1⟩
  rcases List.getElem?_eq_some_iff.1 h2 with ⟨hj, e2⟩
  rcases Nat.lt_trichotomy i j with h | h | h
  · have := List.pairwise_iff_getElem.1 hs i j hi hj h; omega
  · exact h
  · have := List.pairwise_iff_getElem.1 hs j i hj hi h; omega

/-- Distinct positions have distinct cells. -/
theorem addrAt_layout_inj (a : Nat) (s : RangeSet) {x y b : Nat} (h1 : (layout a s.ranges).addrAt x = some b)
    (h2 : (layout a s.ranges).addrAt y = some b) : x = y := by
  obtain ⟨i, hi, _, e1⟩ := addrAt_layout_mem a s (addrAt_layout_inv a s h1)
  obtain ⟨j, hj, _, e2⟩ := addrAt_layout_mem a s (addrAt_layout_inv a s h2)
  rw [h1] at e1; rw [h2] at e2
  simp at e1 e2
  have : i = j := by omega
  subst this
  rw [hi] at hj; simpa using hj

/-- A range of a subset lies inside one range of the set. -/
theorem range_inside {s t : RangeSet} (h : s ⊆ t) {r : Rng} (hr : r ∈ s.ranges) :
    ∃ q ∈ t.ranges, q.1 ≤ r.1 ∧ r.2 ≤ q.2 := by
  have hne := s.canon.nonempty r hr
  have hin : ∀ i, r.1 ≤ i → i < r.2 → i ∈ t := fun i h1 h2 => h i ⟨r, hr, h1, h2⟩
  obtain ⟨q, hq, h1, h2⟩ := hin r.1 (Nat.le_refl _) hne
  refine ⟨q, hq, h1, ?_⟩
  -- all positions up to `r.2` stay in `q`, since the position after `q` is in no range
  by_cases hle : r.2 ≤ q.2
  · exact hle
  · exfalso
    obtain ⟨q', hq', h3, h4⟩ := hin q.2 (by omega) (by omega)
    obtain ⟨i, hi, rfl⟩ := List.mem_iff_getElem.1 hq
    obtain ⟨j, hj, rfl⟩ := List.mem_iff_getElem.1 hq'
    have hp : t.ranges.Pairwise fun a b => a.2 < b.1 := by
      have := t.canon
      generalize t.ranges = l at this
      induction l with
      | nil => simp
      | cons x l ih => exact List.pairwise_cons.2 ⟨fun y hy => this.head_lt y hy, ih this.tail⟩
    have hn := t.canon.nonempty _ hq
    rcases Nat.lt_trichotomy i j with h | h | h
    · have := List.pairwise_iff_getElem.1 hp i j hi hj h; omega
    · subst h; omega
    · have := List.pairwise_iff_getElem.1 hp j i hj hi h; omega

theorem layout_contains {a : Nat} {s t : RangeSet} (h : s ⊆ t) {r : Rng} (hr : r ∈ s.ranges) :
    ∃ e ∈ layout a t.ranges, e.1 ≤ r.1 ∧ r.2 ≤ e.1 + e.2.len := by
  obtain ⟨q, hq, h1, h2⟩ := range_inside h hr
  obtain ⟨e, he, h3, h4⟩ := layout_of_mem (a := a) hq
  have := t.canon.nonempty q hq
  exact ⟨e, he, by omega, by omega⟩

theorem indexE_ok {a : Nat} {s t : RangeSet} (h : s ⊆ t) :
    ∃ m, indexE (layout a t.ranges) s = .ok m ∧ (layout a t.ranges).index s.ranges = .ok m := by
  obtain ⟨m, hm⟩ := RangeMap.index_ok_of_contained (layout_good a t.canon) s.canon.nonempty
    (fun r hr => layout_contains h hr)
  exact ⟨m, by simp [indexE, hm], hm⟩

/-- The reference of a subset's range. -/
theorem layout_get {a : Nat} {s t : RangeSet} (h : s ⊆ t) {r : Rng} (hr : r ∈ s.ranges) :
    ∃ v, (layout a t.ranges).get r = some v := by
  obtain ⟨e, he, h1, h2⟩ := layout_contains (a := a) h hr
  exact ⟨_, RangeMap.get_of_contained (layout_good a t.canon) (s.canon.nonempty r hr) he h1 h2⟩

/-! ## Allocation -/

theorem allocPlaintext_eq (vm : ZkVm) (s : RangeSet) :
    allocPlaintext vm s = .ok (if s.len = 0 then vm else (vm.alloc s.len).1, layout vm.mem.length s.ranges) := by
  unfold allocPlaintext
  split
  · rename_i h
    rw [(len_zero_iff s).1 h]; rfl
  · rw [chunkMap_eq (vm.alloc s.len).2 s.canon (by rw [totalLen_ranges]; exact Nat.le_refl _)]
    rfl

theorem alloc_mem (vm : ZkVm) (s : RangeSet) :
    ∃ m, (if s.len = 0 then vm else (vm.alloc s.len).1).mem = vm.mem ++ m ∧ m.length = s.len := by
  split
  · rename_i h; exact ⟨[], by simp, by simp [h]⟩
  · exact ⟨_, rfl, by simp⟩

/-! ## Ciphertext -/

theorem xorCall_eq {vm : ZkVm} {n : Nat} {p k : List VmVec} (hp : (readAll vm p).length = n)
    (hk : (readAll vm k).length = n) :
    xorCall vm n (p ++ k) = some (vm.call (.xor (p ++ k)) (xorBytes (readAll vm p) (readAll vm k))) := by
  have h : (p ++ k).flatMap vm.read = readAll vm p ++ readAll vm k := readAll_append vm p k
  simp only [xorCall, h]
  rw [if_pos (by rw [List.length_append]; omega)]
  subst hp
  simp

/-- What `alloc_ciphertext` computes. -/
theorem allocCiphertext_spec (aes : AesFn) {vm : ZkVm} {key iv : VmVec} {k i : Bytes} (hk : Holds vm key k)
    (hi : Holds vm iv i) (a : Nat) (s : RangeSet) (ha : a + s.len ≤ vm.mem.length) (recs : List RecordParams) :
    match allocCiphertext aes vm key iv (layout a s.ranges) recs with
    | .ok (vm', ct) => Grew vm vm' ∧ (∀ x ∈ s, (ksAt aes k i recs x).isSome) ∧
        ∃ b, ct = layout b s.ranges ∧ b + s.len ≤ vm'.mem.length ∧
          (vm'.mem.drop b).take s.len = xorBytes ((vm.mem.drop a).take s.len)
            ((positions s.ranges).map fun x => (ksAt aes k i recs x).getD 0)
    | .err e => (e = .vm ∧ ∃ r ∈ recs, r.nonce.length ≠ 8) ∨
        (e = .outOfBounds ∧ ∃ x ∈ s, (recs.map (·.len)).sum ≤ x)
    | .panic => False := by
  simp only [allocCiphertext, layout_isEmpty]
  by_cases he : s.ranges.isEmpty = true
  · rw [if_pos he]
    have hs : s.ranges = [] := by simpa using he
    have hl : s.len = 0 := (len_zero_iff s).2 hs
    simp only
    refine ⟨Grew.refl _, ?_, 0, by simp [hs, layout], by simp [hl], by simp [hl, xorBytes]⟩
    intro x hx; obtain ⟨r, hr, _⟩ := hx; simp [hs] at hr
  · rw [if_neg he, layout_keys s.canon.nonempty, ofRanges_ranges]
    simp only [allocKeystream]
    have h := keystreamLoop_spec aes recs 0 ⟨vm, s.ranges, []⟩ hk hi s.canon (fun _ _ => Nat.zero_le _)
      (fun v hv => by simp at hv)
    revert h
    cases keystreamLoop aes key iv 0 recs ⟨vm, s.ranges, []⟩ with
    | panic => exact fun h => h
    | err e =>
      simp only [Outcome.bind_err]
      rintro (h | ⟨rfl, h⟩)
      · exact .inl h
      · refine .inr ⟨rfl, ?_⟩
        rcases h with rfl | ⟨x, hx, h⟩
        · cases hs : s.ranges with
          | nil => simp [hs] at he
          | cons r t =>
            exact ⟨r.1, ⟨r, by simp [hs], Nat.le_refl _, s.canon.nonempty r (by simp [hs])⟩, by simp⟩
        · exact ⟨x, mem_positions.1 hx, by omega⟩
    | ok st =>
      simp only [Outcome.bind_ok, Outcome.pure_eq]
      rintro ⟨h1, h2, h3, h4⟩
      simp only [readAll, List.flatMap_nil, List.nil_append, Nat.sub_zero] at h3 h4
      obtain ⟨m, hm⟩ := id h1
      have ha' : a + totalLen s.ranges ≤ st.vm.mem.length := by
        rw [totalLen_ranges, hm, List.length_append]; omega
      have hread : readAll st.vm ((layout a s.ranges).map (·.2)) = (vm.mem.drop a).take s.len := by
        rw [readAll_layout _ _ _ ha', totalLen_ranges, hm]
        rw [List.drop_append_of_le_length (by omega), List.take_append_of_le_length (by simp; omega)]
      have hkl : (readAll st.vm st.out).length = s.len := by
        unfold readAll
        rw [h4, List.length_map, positions_length, totalLen_ranges]
      rw [xorCall_eq (by rw [hread]; simp; omega) hkl]
      have hxl : (xorBytes (readAll st.vm ((layout a s.ranges).map (·.2))) (readAll st.vm st.out)).length = s.len := by
        rw [xorBytes_length, hkl, hread]; simp; omega
      simp only [ZkVm.call]
      rw [chunkMap_eq _ s.canon (by rw [totalLen_ranges]; simp only; omega)]
      simp only
      refine ⟨h1.trans ⟨_, rfl⟩, ?_, st.vm.mem.length, rfl, ?_, ?_⟩
      · intro x hx
        have := h3 x (mem_positions.2 hx)
        exact this
      · rw [List.length_append, hxl]; exact Nat.le_refl _
      · rw [List.drop_left, List.take_of_length_le (by omega), hread]
        congr 1

end Tlsn
