import Verif.Auth.Vm

/-! # Range maps resolve positions to the right memory (C48) -/

namespace Tlsn
namespace RangeMap

/-- Specification: the memory cell of a transcript position. -/
def addrAt (m : RangeMap) (i : Nat) : Option Nat :=
  (m.find? fun e => decide (e.1 ≤ i ∧ i < e.1 + e.2.len)).map fun e => e.2.addr + (i - e.1)

/-- Items in order, without overlap, none empty. -/
def Good (m : RangeMap) : Prop :=
  m.Pairwise (fun e f => e.1 + e.2.len ≤ f.1) ∧ ∀ e ∈ m, 0 < e.2.len

theorem fromIter_eq {pos : Nat} {l : List (Nat × VmVec)} {m : RangeMap} (h : fromIter pos l = some m) :
    m = l ∧ (∀ e ∈ l, pos ≤ e.1) ∧ l.Pairwise (fun e f => e.1 + e.2.len ≤ f.1) := by
  induction l generalizing pos m with
  | nil => simp [fromIter] at h; simp [h]
  | cons e t ih =>
    obtain ⟨i, v⟩ := e
    simp only [fromIter] at h
    by_cases hp : i < pos
    · simp [hp] at h
    · rw [if_neg hp] at h
      simp only [Option.map_eq_some_iff] at h
      obtain ⟨m', h1, h2⟩ := h
      obtain ⟨h3, h4, h5⟩ := ih h1
      subst h2 h3
      refine ⟨rfl, ?_, ?_⟩
      · intro e he
        rcases List.mem_cons.1 he with rfl | he
        · exact Nat.not_lt.1 hp
        · have := h4 e he; omega
      · rw [List.pairwise_cons]
        exact ⟨fun f hf => h4 f hf, h5⟩

theorem fromIter_some {pos : Nat} {l : List (Nat × VmVec)} (h : ∀ e ∈ l, pos ≤ e.1)
    (hp : l.Pairwise (fun e f => e.1 + e.2.len ≤ f.1)) : fromIter pos l = some l := by
  induction l generalizing pos with
  | nil => rfl
  | cons e t ih =>
    obtain ⟨i, v⟩ := e
    have h1 := h (i, v) (by simp)
    rw [List.pairwise_cons] at hp
    simp only [fromIter]
    rw [if_neg (by simpa using h1), ih (fun e he => hp.1 e he) hp.2]
    rfl

/-- The element found by `locate` is the last one starting at or before the position. -/
theorem countP_lt_sorted {l : RangeMap} (hs : l.Pairwise fun e f => e.1 < f.1) (x i : Nat) (e : Nat × VmVec)
    (h : l[i]? = some e) : e.1 < x ↔ i < l.countP fun e => decide (e.1 < x) := by
  induction l generalizing i with
  | nil => simp at h
  | cons a t ih =>
    rw [List.pairwise_cons] at hs
    cases i with
    | zero =>
      simp at h; subst h
      by_cases ha : a.1 < x
      · simp [ha]
      · simp only [ha, false_iff, Nat.not_lt, Nat.le_zero_eq]
        rw [List.countP_eq_zero]
        intro f hf
        rcases List.mem_cons.1 hf with rfl | hf
        · simpa using ha
        · have := hs.1 f hf
          simp; omega
    | succ i =>
      simp at h
      have := ih hs.2 i h
      by_cases ha : a.1 < x
      · simp [ha, this]
      · have hm := hs.1 e (List.mem_of_getElem? h)
        have : t.countP (fun e => decide (e.1 < x)) = 0 := by
          rw [List.countP_eq_zero]
          intro f hf
          have := hs.1 f hf
          simp; omega
        simp [ha, this]; omega

theorem Good.strict {m : RangeMap} (h : m.Good) : m.Pairwise fun e f => e.1 < f.1 := by
  refine List.Pairwise.imp_of_mem ?_ h.1
  intro e f he hf h1
  have := h.2 e he; omega

theorem locate_some {m : RangeMap} (hg : m.Good) {x : Nat} {e : Nat × VmVec} (h : m.locate x = some e) :
    e ∈ m ∧ e.1 ≤ x ∧ ∀ f ∈ m, f.1 ≤ x → f.1 ≤ e.1 := by
  have hs := hg.strict
  simp only [locate, search] at h
  cases hi : (m.map (·.1)).idxOf? x with
  | some i =>
    simp only [hi] at h
    have h1 : (m.map (·.1))[i]? = some x := by
      have := List.findIdx?_eq_some_iff_getElem.1 hi
      obtain ⟨hlt, h2, _⟩ := this
      rw [List.getElem?_eq_getElem hlt]; simpa using h2
    rw [List.getElem?_map, h] at h1
    simp at h1; subst h1
    exact ⟨List.mem_of_getElem? h, Nat.le_refl _, fun f _ hf => hf⟩
  | none =>
    simp only [hi] at h
    have hno : ∀ f ∈ m, f.1 ≠ x := by
      intro f hf hfx
      have := List.findIdx?_eq_none_iff.1 hi
      have := this f.1 (List.mem_map_of_mem hf)
      simp [hfx] at this
    cases hc : m.countP fun e => decide (e.1 < x) with
    | zero => simp [hc] at h
    | succ k =>
      simp only [hc] at h
      have hek := (countP_lt_sorted hs x k e h).2 (by omega)
      refine ⟨List.mem_of_getElem? h, by omega, ?_⟩
      intro f hf hfx
      obtain ⟨j, hj⟩ := List.mem_iff_getElem?.1 hf
      have h1 := hno f hf
      have h2 := (countP_lt_sorted hs x j f hj).1 (by omega)
      rw [hc] at h2
      rcases Nat.lt_or_ge j k with hjk | hjk
      · have hjl : j < m.length := by
          rcases List.getElem?_eq_some_iff.1 hj with ⟨a, _⟩; exact a
        have hkl : k < m.length := by
          rcases List.getElem?_eq_some_iff.1 h with ⟨a, _⟩; exact a
        have := List.pairwise_iff_getElem.1 hs j k hjl hkl hjk
        rw [List.getElem?_eq_getElem hjl] at hj
        rw [List.getElem?_eq_getElem hkl] at h
        simp at hj h
        rw [hj, h] at this
        omega
      · have : j = k := by omega
        subst this
        rw [hj] at h; simp at h; subst h; exact Nat.le_refl _

theorem locate_isSome {m : RangeMap} (hg : m.Good) {x : Nat} {f : Nat × VmVec} (hf : f ∈ m) (hx : f.1 ≤ x) :
    ∃ e, m.locate x = some e := by
  have hs := hg.strict
  simp only [locate, search]
  cases hi : (m.map (·.1)).idxOf? x with
  | some i =>
    have := List.findIdx?_eq_some_iff_getElem.1 hi
    obtain ⟨hlt, h2, _⟩ := this
    simp at hlt
    exact ⟨_, List.getElem?_eq_getElem hlt⟩
  | none =>
    have hne : f.1 ≠ x := by
      intro hfx
      have := List.findIdx?_eq_none_iff.1 hi
      have := this f.1 (List.mem_map_of_mem hf)
      simp [hfx] at this
    have hpos : 0 < m.countP fun e => decide (e.1 < x) := by
      rw [List.countP_pos_iff]
      exact ⟨f, hf, by simp; omega⟩
    have hle : (m.countP fun e => decide (e.1 < x)) ≤ m.length := List.countP_le_length
    cases hc : m.countP fun e => decide (e.1 < x) with
    | zero => omega
    | succ k => exact ⟨_, List.getElem?_eq_getElem (by omega)⟩

/-- At most one item contains a position. -/
theorem Good.unique {m : RangeMap} (hg : m.Good) {e f : Nat × VmVec} (he : e ∈ m) (hf : f ∈ m) {i : Nat}
    (h1 : e.1 ≤ i ∧ i < e.1 + e.2.len) (h2 : f.1 ≤ i ∧ i < f.1 + f.2.len) : e = f := by
  obtain ⟨j, hj, rfl⟩ := List.mem_iff_getElem.1 he
  obtain ⟨k, hk, rfl⟩ := List.mem_iff_getElem.1 hf
  rcases Nat.lt_trichotomy j k with h | h | h
  · have := List.pairwise_iff_getElem.1 hg.1 j k hj hk h; omega
  · subst h; rfl
  · have := List.pairwise_iff_getElem.1 hg.1 k j hk hj h; omega

theorem addrAt_of_mem {m : RangeMap} (hg : m.Good) {e : Nat × VmVec} (he : e ∈ m) {i : Nat}
    (h : e.1 ≤ i ∧ i < e.1 + e.2.len) : m.addrAt i = some (e.2.addr + (i - e.1)) := by
  unfold addrAt
  cases hf : m.find? fun e => decide (e.1 ≤ i ∧ i < e.1 + e.2.len) with
  | none =>
    have := List.find?_eq_none.1 hf e he
    simp at this; omega
  | some f =>
    have h1 := List.mem_of_find?_eq_some hf
    have h2 := List.find?_some hf
    simp at h2
    rw [hg.unique he h1 h h2]; rfl

theorem addrAt_some {m : RangeMap} {i a : Nat} (h : m.addrAt i = some a) :
    ∃ e ∈ m, (e.1 ≤ i ∧ i < e.1 + e.2.len) ∧ a = e.2.addr + (i - e.1) := by
  unfold addrAt at h
  simp only [Option.map_eq_some_iff] at h
  obtain ⟨e, h1, h2⟩ := h
  have h3 := List.find?_some h1
  exact ⟨e, List.mem_of_find?_eq_some h1, by simpa using h3, h2.symm⟩

/-- `get` finds the item that holds the whole range. -/
theorem get_eq_some {m : RangeMap} (hg : m.Good) {r : Rng} {s : VmVec} :
    m.get r = some s ↔ r.1 < r.2 ∧ ∃ e ∈ m, e.1 ≤ r.1 ∧ r.2 ≤ e.1 + e.2.len ∧
      s = ⟨e.2.addr + (r.1 - e.1), r.2 - r.1⟩ := by
  obtain ⟨lo, hi⟩ := r
  simp only [get]
  by_cases hr : lo ≥ hi
  · rw [if_pos hr]; simp; omega
  · rw [if_neg hr]
    constructor
    · intro h
      cases hl : m.locate lo with
      | none => simp [hl] at h
      | some e =>
        obtain ⟨base, item⟩ := e
        simp only [hl, VmVec.get] at h
        obtain ⟨h1, h2, h3⟩ := locate_some hg hl
        split at h
        · rename_i hc
          simp at h
          simp only at h2
          refine ⟨by omega, (base, item), h1, h2, ?_, ?_⟩
          · show hi ≤ base + item.len; omega
          · rw [← h]; simp only [VmVec.mk.injEq]; exact ⟨trivial, by omega⟩
        · simp at h
    · rintro ⟨h0, e, he, h1, h2, rfl⟩
      obtain ⟨f, hf⟩ := locate_isSome hg he h1
      obtain ⟨h3, h4, h5⟩ := locate_some hg hf
      have h6 := h5 e he h1
      have h0' : lo < hi := h0
      have hef : e = f := by
        have hs := hg.2 e he
        obtain ⟨j, hj, rfl⟩ := List.mem_iff_getElem.1 he
        obtain ⟨k, hk, rfl⟩ := List.mem_iff_getElem.1 h3
        rcases Nat.lt_trichotomy j k with h | h | h
        · have := List.pairwise_iff_getElem.1 hg.1 j k hj hk h
          omega
        · subst h; rfl
        · have := List.pairwise_iff_getElem.1 hg.1 k j hk hj h
          have := hg.2 _ h3
          omega
      subst hef
      obtain ⟨base, item⟩ := e
      simp only [hf, VmVec.get] at *
      rw [if_pos (by omega)]
      simp only [Option.some.injEq, VmVec.mk.injEq]
      exact ⟨trivial, by omega⟩

theorem index1_eq_ok {m : RangeMap} (hg : m.Good) {r : Rng} (hr : r.1 < r.2) {x : Nat × VmVec} :
    m.index1 r = .ok x ↔ ∃ s, m.get r = some s ∧ x = (r.1, s) := by
  obtain ⟨lo, hi⟩ := r
  simp only [index1, get]
  simp only at hr
  rw [if_neg (by omega)]
  cases hl : m.locate lo with
  | none => simp
  | some e =>
    obtain ⟨base, item⟩ := e
    obtain ⟨h1, h2, h3⟩ := locate_some hg hl
    simp only at h2
    simp only [VmVec.get]
    by_cases hc : hi ≤ base + item.len
    · rw [if_neg (by omega), if_pos (by omega), if_pos (by omega)]
      have : lo - base + (hi - lo) - (lo - base) = hi - base - (lo - base) := by omega
      simp [this, eq_comm]
    · rw [if_pos (by omega), if_neg (by omega)]; simp

theorem index1_not_panic {m : RangeMap} {r : Rng} (hr : r.1 < r.2) :
    m.index1 r ≠ .panic := by
  obtain ⟨lo, hi⟩ := r
  simp only [index1]
  simp only at hr
  cases hl : m.locate lo with
  | none => simp
  | some e =>
    obtain ⟨base, item⟩ := e
    simp only [VmVec.get]
    by_cases hc : lo < base ∨ hi > base + item.len
    · simp [hc]
    · rw [if_neg hc, if_pos (by omega)]; simp

/-- What `index` returns. -/
theorem index_eq_ok {m : RangeMap} (hg : m.Good) {rs : List Rng} (hr : ∀ r ∈ rs, r.1 < r.2) {m' : RangeMap} :
    m.index rs = .ok m' ↔ rs.mapM (fun r => (m.get r).map fun s => (r.1, s)) = some m' := by
  induction rs generalizing m' with
  | nil => simp [index]
  | cons r t ih =>
    have h1 := hr r (by simp)
    have ih := @ih (fun r h => hr r (by simp [h]))
    simp only [index, Outcome.bind_eq_ok, Outcome.pure_eq, Outcome.ok.injEq, List.mapM_cons,
      Option.bind_eq_bind, Option.bind_eq_some_iff, Option.pure_def, Option.some.injEq,
      Option.map_eq_some_iff]
    constructor
    · rintro ⟨e, h2, t', h3, rfl⟩
      obtain ⟨s, h4, rfl⟩ := (index1_eq_ok hg h1).1 h2
      exact ⟨_, ⟨s, h4, rfl⟩, t', ih.1 h3, rfl⟩
    · rintro ⟨e, ⟨s, h4, rfl⟩, t', h3, rfl⟩
      exact ⟨_, (index1_eq_ok hg h1).2 ⟨s, h4, rfl⟩, t', ih.2 h3, rfl⟩

theorem index_not_panic {m : RangeMap} {rs : List Rng} (hr : ∀ r ∈ rs, r.1 < r.2) :
    m.index rs ≠ .panic := by
  induction rs with
  | nil => simp [index]
  | cons r t ih =>
    have h1 := index1_not_panic (m := m) (hr r (by simp))
    have ih := ih (fun r h => hr r (by simp [h]))
    simp only [index]
    cases h2 : m.index1 r with
    | panic => exact absurd h2 h1
    | err e => simp
    | ok e =>
      simp only [Outcome.bind_ok]
      cases h3 : m.index t with
      | panic => exact absurd h3 ih
      | err e => simp
      | ok e => simp

theorem get_of_contained {m : RangeMap} (hg : m.Good) {r : Rng} (hr : r.1 < r.2) {e : Nat × VmVec} (he : e ∈ m)
    (h1 : e.1 ≤ r.1) (h2 : r.2 ≤ e.1 + e.2.len) :
    m.get r = some ⟨e.2.addr + (r.1 - e.1), r.2 - r.1⟩ :=
  (get_eq_some hg).2 ⟨hr, e, he, h1, h2, rfl⟩

theorem index_ok_of_contained {m : RangeMap} (hg : m.Good) {rs : List Rng} (hr : ∀ r ∈ rs, r.1 < r.2)
    (h : ∀ r ∈ rs, ∃ e ∈ m, e.1 ≤ r.1 ∧ r.2 ≤ e.1 + e.2.len) : ∃ m', m.index rs = .ok m' := by
  induction rs with
  | nil => exact ⟨[], rfl⟩
  | cons r t ih =>
    obtain ⟨t', h1⟩ := ih (fun r h => hr r (by simp [h])) (fun r hh => h r (by simp [hh]))
    obtain ⟨e, he, h2, h3⟩ := h r (by simp)
    have h4 := get_of_contained hg (hr r (by simp)) he h2 h3
    have h5 := (index1_eq_ok hg (hr r (by simp))).2 ⟨_, h4, rfl⟩
    refine ⟨(r.1, ⟨e.2.addr + (r.1 - e.1), r.2 - r.1⟩) :: t', ?_⟩
    rw [index, h5, Outcome.bind_ok, h1, Outcome.bind_ok, Outcome.pure_eq]

/-- The entries of an indexed map. -/
theorem mem_index {m : RangeMap} (hg : m.Good) {rs : List Rng} (hr : ∀ r ∈ rs, r.1 < r.2) {m' : RangeMap}
    (h : m.index rs = .ok m') : (∀ x ∈ m', ∃ r ∈ rs, x.1 = r.1 ∧ m.get r = some x.2) ∧
      ∀ r ∈ rs, ∃ s, m.get r = some s ∧ (r.1, s) ∈ m' := by
  rw [index_eq_ok hg hr] at h
  induction rs generalizing m' with
  | nil => simp at h; subst h; simp
  | cons r t ih =>
    simp only [List.mapM_cons, Option.bind_eq_bind, Option.bind_eq_some_iff, Option.pure_def,
      Option.some.injEq, Option.map_eq_some_iff] at h
    obtain ⟨e, ⟨s, h4, rfl⟩, t', h3, rfl⟩ := h
    obtain ⟨i1, i2⟩ := ih (fun r h => hr r (by simp [h])) h3
    constructor
    · intro x hx
      rcases List.mem_cons.1 hx with rfl | hx
      · exact ⟨r, by simp, rfl, h4⟩
      · obtain ⟨q, hq, h5⟩ := i1 x hx
        exact ⟨q, by simp [hq], h5⟩
    · intro q hq
      rcases List.mem_cons.1 hq with rfl | hq
      · exact ⟨s, h4, by simp⟩
      · obtain ⟨s', h5, h6⟩ := i2 q hq
        exact ⟨s', h5, by simp [h6]⟩

theorem get_addrAt {m : RangeMap} (hg : m.Good) {r : Rng} {s : VmVec} (h : m.get r = some s) :
    s.len = r.2 - r.1 ∧ ∀ k < s.len, m.addrAt (r.1 + k) = some (s.addr + k) := by
  obtain ⟨h0, e, he, h1, h2, rfl⟩ := (get_eq_some hg).1 h
  refine ⟨rfl, ?_⟩
  intro k hk
  simp only at hk
  rw [addrAt_of_mem hg he (by omega)]
  simp only [Option.some.injEq]; omega

/-- `index` keeps order: an indexed map of sorted ranges is again well formed. -/
theorem index_good {m : RangeMap} (hg : m.Good) {rs : List Rng} (hc : Canon rs) {m' : RangeMap}
    (h : m.index rs = .ok m') : m'.Good := by
  have hr := hc.nonempty
  have hm := mem_index hg hr h
  rw [index_eq_ok hg hr] at h
  have hlen : ∀ x ∈ m', 0 < x.2.len := by
    intro x hx
    obtain ⟨r, h1, h2, h3⟩ := hm.1 x hx
    have := (get_addrAt hg h3).1
    have := hr r h1
    omega
  refine ⟨?_, hlen⟩
  clear hlen hm
  induction rs generalizing m' with
  | nil => simp at h; subst h; simp
  | cons r t ih =>
    simp only [List.mapM_cons, Option.bind_eq_bind, Option.bind_eq_some_iff, Option.pure_def,
      Option.some.injEq, Option.map_eq_some_iff] at h
    obtain ⟨e, ⟨s, h4, rfl⟩, t', h3, rfl⟩ := h
    rw [List.pairwise_cons]
    refine ⟨?_, ih hc.tail h3 (fun r h => hr r (by simp [h]))⟩
    intro f hf
    obtain ⟨q, hq, h5, h6⟩ := (mem_index hg (fun r h => hr r (by simp [h]))
      ((index_eq_ok hg (fun r h => hr r (by simp [h]))).2 h3)).1 f hf
    have := hc.head_lt q hq
    have := (get_addrAt hg h4).1
    have := hr r (by simp)
    simp only; omega

end RangeMap
end Tlsn
