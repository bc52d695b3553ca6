import Verif.Deap.Model
import Mathlib.Order.Nat

/-! # C47: the translation of addresses -/

namespace Tlsn.DualExec

/-! ## Specification -/

/-- The map after inserting pairs of slices of the two memories one after the other; `none` if that panics. -/
def MemoryMap.inserts (l : List (Slice × Slice)) : Option MemoryMap := l.foldlM (fun m x => m.insert x.1 x.2) .empty

/-- A slice is inside another one. -/
def Slice.Inside (s c : Slice) : Prop := c.start ≤ s.start ∧ s.start + s.len ≤ c.start + c.len

/-- The slices have no cell in common. -/
def Slice.Disjoint (a b : Slice) : Prop := a.start + a.len ≤ b.start ∨ b.start + b.len ≤ a.start

/-! ## Lemmas -/

/-- The map contains these pairs. -/
structure MemoryMap.Ok (m : MemoryMap) (l : List (Slice × Slice)) : Prop where
  mpc : m.mpc = l.map (·.1)
  zk : m.zk = l.map (·.2)
  len : ∀ x ∈ l, x.1.len = x.2.len
  asc : l.Pairwise fun a b => a.1.stop ≤ b.1.start

theorem MemoryMap.Ok.nil : MemoryMap.empty.Ok [] := ⟨rfl, rfl, by simp, .nil⟩

theorem MemoryMap.Ok.insert {m m' : MemoryMap} {l : List (Slice × Slice)} (h : m.Ok l) {a b : Slice} (hi : m.insert a b = some m') :
    m'.Ok (l ++ [(a, b)]) := by
  unfold MemoryMap.insert at hi
  split at hi
  · cases hi
  · rename_i h1
    split at hi
    · cases hi
    · rename_i h2
      cases hi
      refine ⟨by simp [h.mpc], by simp [h.zk], ?_, ?_⟩
      · intro x hx
        rcases List.mem_append.1 hx with hx | hx
        · exact h.len x hx
        · obtain rfl := List.mem_singleton.1 hx
          simpa using h1
      · rw [List.pairwise_append]
        refine ⟨h.asc, by simp, ?_⟩
        intro x hx y hy
        obtain rfl := List.mem_singleton.1 hy
        simp only
        rcases List.eq_nil_or_concat l with rfl | ⟨l', y, rfl⟩
        · cases hx
        · rw [h.mpc] at h2
          simp only [List.concat_eq_append, List.map_append, List.map_cons, List.map_nil, List.getLast?_append, List.getLast?_singleton,
            Option.some_or, Option.any_some, gt_iff_lt, decide_eq_true_eq, not_lt] at h2
          rw [List.concat_eq_append] at hx
          rcases List.mem_append.1 hx with hx | hx
          · have := h.asc
            rw [List.concat_eq_append, List.pairwise_append] at this
            have h3 := this.2.2 x hx y (by simp)
            have : y.1.start ≤ y.1.stop := Nat.le_add_right _ _
            omega
          · obtain rfl := List.mem_singleton.1 hx
            exact h2

theorem MemoryMap.ok_of_inserts {m : MemoryMap} {l : List (Slice × Slice)} (h : MemoryMap.inserts l = some m) : m.Ok l := by
  have key : ∀ (l' l : List (Slice × Slice)) (m0 : MemoryMap), m0.Ok l →
      l'.foldlM (fun (m : MemoryMap) (x : Slice × Slice) => m.insert x.1 x.2) m0 = some m → m.Ok (l ++ l') := by
    intro l'
    induction l' with
    | nil => intro l m0 h0 h; cases h; simpa using h0
    | cons x xs ih =>
      intro l m0 h0 h
      rw [List.foldlM_cons] at h
      obtain ⟨m1, h1, h2⟩ := Option.bind_eq_some_iff.1 h
      have := ih _ _ (h0.insert h1) h2
      simpa using this
  simpa using key l [] .empty .nil h

theorem MemoryMap.Ok.at {m : MemoryMap} {l : List (Slice × Slice)} (h : m.Ok l) (s : Slice) (pos : Nat) :
    m.at s pos = match l[pos]? with
      | some (a, b) => if s.isSubset a then .ok ⟨b.start + (s.start - a.start), s.len⟩ else .err ()
      | none => .panic := by
  unfold MemoryMap.at
  rw [h.mpc, h.zk, List.getElem?_map, List.getElem?_map]
  cases l[pos]? <;> rfl

theorem MemoryMap.Ok.sorted {m : MemoryMap} {l : List (Slice × Slice)} (h : m.Ok l) : (m.mpc.map (·.start)).Pairwise (· ≤ ·) := by
  rw [h.mpc, List.map_map, List.pairwise_map]
  refine h.asc.imp ?_
  intro a b hab
  have : a.1.start ≤ a.1.stop := Nat.le_add_right _ _
  exact le_trans this hab

/-- The place that `tryGet` looks at: the start there is not above the slice, and later ones are above it or are equal to it. -/
theorem MemoryMap.Ok.tryGet {m : MemoryMap} {l : List (Slice × Slice)} (h : m.Ok l) (B : BSearch) (s : Slice) :
    (m.tryGet B s = .err () ∧ ∀ x ∈ l, s.start < x.1.start) ∨
    ∃ pos x, l[pos]? = some x ∧ m.tryGet B s = m.at s pos ∧ x.1.start ≤ s.start ∧
      ((B.find (m.mpc.map (·.start)) s.start = .ok pos ∧ x.1.start = s.start) ∨ ∀ (j : Nat) (y : Slice × Slice), pos < j → l[j]? = some y → s.start < y.1.start) := by
  unfold MemoryMap.tryGet
  have hget : ∀ (j : Nat) (y : Slice × Slice), l[j]? = some y → (m.mpc.map (·.start))[j]? = some y.1.start := by
    intro j y hy
    rw [h.mpc, List.map_map, List.getElem?_map, hy]
    rfl
  cases hf : B.find (m.mpc.map (·.start)) s.start with
  | ok pos =>
    right
    have := B.ok _ _ _ hf
    rw [h.mpc, List.map_map, List.getElem?_map, Option.map_eq_some_iff] at this
    obtain ⟨x, hx, hs⟩ := this
    exact ⟨pos, x, hx, rfl, le_of_eq hs, Or.inl ⟨rfl, hs⟩⟩
  | error i =>
    obtain ⟨e1, e2, e3⟩ := B.error _ _ _ h.sorted hf
    cases i with
    | zero =>
      left
      refine ⟨rfl, fun x hx => ?_⟩
      obtain ⟨j, hj, rfl⟩ := List.mem_iff_getElem.1 hx
      exact e3 j _ (Nat.zero_le _) (hget j _ (List.getElem?_eq_getElem hj))
    | succ pos =>
      right
      have hl : pos < l.length := by
        rw [h.mpc, List.map_map, List.length_map] at e1
        omega
      refine ⟨pos, l[pos], List.getElem?_eq_getElem hl, rfl, ?_, Or.inr ?_⟩
      · exact le_of_lt (e2 pos _ (Nat.lt_succ_self _) (hget pos _ (List.getElem?_eq_getElem hl)))
      · intro j y hj hy
        exact e3 j _ hj (hget j y hy)

theorem Slice.isSubset_iff {s c : Slice} (hs : 0 < s.len) : s.isSubset c = true ↔ s.Inside c := by
  have h0 : ¬ s.len = 0 := by omega
  simp only [Slice.isSubset, Slice.Inside, Bool.or_eq_true, beq_iff_eq, Bool.and_eq_true, decide_eq_true_eq, h0, false_or]
  exact Iff.rfl

theorem MemoryMap.Ok.tryGet_ok {m : MemoryMap} {l : List (Slice × Slice)} (h : m.Ok l) {B : BSearch} {s z : Slice}
    (hz : m.tryGet B s = .ok z) (hs : 0 < s.len) :
    ∃ x ∈ l, s.Inside x.1 ∧ z = ⟨x.2.start + (s.start - x.1.start), s.len⟩ := by
  rcases h.tryGet B s with ⟨h1, -⟩ | ⟨pos, x, hx, h1, -⟩
  · rw [h1] at hz; cases hz
  · rw [h1, h.at, hx] at hz
    simp only at hz
    split at hz
    · rename_i hsub
      cases hz
      exact ⟨x, List.mem_of_getElem? hx, (Slice.isSubset_iff hs).1 hsub, rfl⟩
    · cases hz

theorem MemoryMap.Ok.tryGet_len {m : MemoryMap} {l : List (Slice × Slice)} (h : m.Ok l) {B : BSearch} {s z : Slice}
    (hz : m.tryGet B s = .ok z) : z.len = s.len := by
  rcases h.tryGet B s with ⟨h1, -⟩ | ⟨pos, x, hx, h1, -⟩
  · rw [h1] at hz; cases hz
  · rw [h1, h.at, hx] at hz
    simp only at hz
    split at hz
    · cases hz; rfl
    · cases hz

theorem MemoryMap.Ok.tryGet_no_panic {m : MemoryMap} {l : List (Slice × Slice)} (h : m.Ok l) (B : BSearch) (s : Slice) :
    m.tryGet B s ≠ .panic := by
  rcases h.tryGet B s with ⟨h1, -⟩ | ⟨pos, x, hx, h1, -⟩
  · rw [h1]; simp
  · rw [h1, h.at, hx]
    simp only
    split <;> simp

/-- If the place that was found is not that of an empty slice, slices inside are translated. -/
theorem MemoryMap.Ok.tryGet_complete {m : MemoryMap} {l : List (Slice × Slice)} (h : m.Ok l) {B : BSearch} {s : Slice} (hs : 0 < s.len)
    {x : Slice × Slice} (hx : x ∈ l) (hin : s.Inside x.1)
    (hB : (∀ y ∈ l, 0 < y.1.len) ∨ ∀ k a i, B.find k a = .ok i → ∀ j, i < j → k[j]? ≠ some a) :
    m.tryGet B s = .ok ⟨x.2.start + (s.start - x.1.start), s.len⟩ := by
  obtain ⟨i, hi, rfl⟩ := List.mem_iff_getElem.1 hx
  have hpw := List.pairwise_iff_getElem.1 h.asc
  rcases h.tryGet B s with ⟨-, h2⟩ | ⟨pos, y, hy, h1, h2, h3⟩
  · exact absurd hin.1 (not_le.2 (h2 _ hx))
  · obtain ⟨hp, rfl⟩ := List.getElem?_eq_some_iff.1 hy
    have hpos : pos = i := by
      rcases Nat.lt_trichotomy pos i with hlt | heq | hgt
      · exfalso
        rcases h3 with ⟨h3, h4⟩ | h3
        · have ha := hpw pos i hp hi hlt
          have hst : l[i].1.start = s.start := by
            have := hin.1
            simp only [Slice.stop] at ha
            omega
          rcases hB with hB | hB
          · have := hB _ (List.getElem_mem hp)
            simp only [Slice.stop] at ha
            omega
          · refine hB _ _ _ h3 i hlt ?_
            rw [h.mpc, List.map_map, List.getElem?_map, List.getElem?_eq_getElem hi]
            simp [hst]
        · have := h3 i _ hlt (List.getElem?_eq_getElem hi)
          have := hin.1
          omega
      · exact heq
      · exfalso
        have ha := hpw i pos hi hp hgt
        have := hin.2
        simp only [Slice.stop] at ha
        omega
    subst hpos
    rw [h1, h.at, hy]
    simp only
    rw [if_pos ((Slice.isSubset_iff hs).2 hin)]

end Tlsn.DualExec

namespace Tlsn

open DualExec

/-! ## C47 -/

/-- C47: whatever was inserted, and whichever of equal keys the search finds: a slice that is translated is inside an allocation of the
MPC memory, and its translation is at the same offset of the allocation of the ZK memory that was inserted with it. -/
theorem C47_sound (B : BSearch) (l : List (Slice × Slice)) (m : MemoryMap) (hm : MemoryMap.inserts l = some m) (s z : Slice)
    (hs : 0 < s.len) (hz : m.tryGet B s = .ok z) :
    ∃ a b, (a, b) ∈ l ∧ s.Inside a ∧ z.Inside b ∧ z.len = s.len ∧ z.start - b.start = s.start - a.start := by
  have h := MemoryMap.ok_of_inserts hm
  obtain ⟨⟨a, b⟩, hx, hin, rfl⟩ := h.tryGet_ok hz hs
  have := h.len _ hx
  simp only [Slice.Inside] at hin this
  exact ⟨a, b, hx, hin, ⟨Nat.le_add_right _ _, by show b.start + (s.start - a.start) + s.len ≤ _; omega⟩, rfl,
    by show b.start + (s.start - a.start) - _ = _; omega⟩

/-- C47: without empty allocations, or if the search finds the last of equal keys, every slice inside an allocation is translated;
all others fail, and nothing panics. -/
theorem C47_translates (B : BSearch) (l : List (Slice × Slice)) (m : MemoryMap) (hm : MemoryMap.inserts l = some m) (s : Slice)
    (hs : 0 < s.len) (hB : (∀ x ∈ l, 0 < x.1.len) ∨ ∀ k a i, B.find k a = .ok i → ∀ j, i < j → k[j]? ≠ some a) :
    (∀ a b, (a, b) ∈ l → s.Inside a → m.tryGet B s = .ok ⟨b.start + (s.start - a.start), s.len⟩) ∧
    ((∀ x ∈ l, ¬ s.Inside x.1) → m.tryGet B s = .err ()) := by
  have h := MemoryMap.ok_of_inserts hm
  refine ⟨fun a b hx hin => h.tryGet_complete hs hx hin hB, fun hn => ?_⟩
  cases hz : m.tryGet B s with
  | ok z =>
    obtain ⟨x, hx, hin, -⟩ := h.tryGet_ok hz hs
    exact absurd hin (hn x hx)
  | err e => rfl
  | panic => exact absurd hz (h.tryGet_no_panic B s)

/-- C47: if the allocations in the ZK memory are disjoint, the translations of disjoint slices are. -/
theorem C47_no_alias (B : BSearch) (l : List (Slice × Slice)) (m : MemoryMap) (hm : MemoryMap.inserts l = some m)
    (hd : l.Pairwise fun a b => a.2.Disjoint b.2) (s s' z z' : Slice) (hs : 0 < s.len) (hs' : 0 < s'.len)
    (hz : m.tryGet B s = .ok z) (hz' : m.tryGet B s' = .ok z') (hss : s.Disjoint s') : z.Disjoint z' := by
  have h := MemoryMap.ok_of_inserts hm
  obtain ⟨x, hx, hin, rfl⟩ := h.tryGet_ok hz hs
  obtain ⟨y, hy, hin', rfl⟩ := h.tryGet_ok hz' hs'
  have h1 := h.len _ hx
  have h2 := h.len _ hy
  obtain ⟨i, hi, rfl⟩ := List.mem_iff_getElem.1 hx
  obtain ⟨j, hj, rfl⟩ := List.mem_iff_getElem.1 hy
  have hpw := List.pairwise_iff_getElem.1 hd
  simp only [Slice.Inside, Slice.Disjoint] at *
  rcases Nat.lt_trichotomy i j with hlt | rfl | hgt
  · have := hpw i j hi hj hlt; omega
  · omega
  · have := hpw j i hj hi hgt; omega

/-- C47: an insertion panics exactly if the lengths differ or the slice starts before the end of the one before. -/
theorem C47_insert_panics (l : List (Slice × Slice)) (m : MemoryMap) (hm : MemoryMap.inserts l = some m) (a b : Slice) :
    m.insert a b = none ↔ a.len ≠ b.len ∨ ∃ x ∈ l, a.start < x.1.start + x.1.len := by
  have h := MemoryMap.ok_of_inserts hm
  unfold MemoryMap.insert
  by_cases h1 : a.len ≠ b.len
  · simp [h1]
  · rw [if_neg h1, h.mpc]
    rcases List.eq_nil_or_concat l with rfl | ⟨l', y, rfl⟩
    · simp [h1]
    · simp only [List.concat_eq_append, List.map_append, List.map_cons, List.map_nil, List.getLast?_append, List.getLast?_singleton,
        Option.some_or, Option.any_some, gt_iff_lt, decide_eq_true_eq, Slice.stop, h1, false_or]
      constructor
      · intro hh
        split at hh
        · rename_i hlt
          exact ⟨y, by simp, hlt⟩
        · cases hh
      · rintro ⟨x, hx, hlt⟩
        rw [if_pos]
        rcases List.mem_append.1 hx with hx | hx
        · have hp := h.asc
          rw [List.concat_eq_append, List.pairwise_append] at hp
          have := hp.2.2 x hx y (by simp)
          simp only [Slice.stop] at this
          omega
        · obtain rfl := List.mem_singleton.1 hx
          exact hlt

/-! ## Examples -/

/-- Goes through the keys up to the first one that is not below. -/
def findFirst (x : Nat) : List Nat → Except Nat Nat
  | [] => .error 0
  | a :: l => if a = x then .ok 0 else if x < a then .error 0 else
    match findFirst x l with
    | .ok i => .ok (i + 1)
    | .error i => .error (i + 1)

/-- A search that finds the first of equal keys. -/
def firstSearch : BSearch where
  find l x := findFirst x l
  ok := by
    intro l x
    induction l with
    | nil => intro i h; cases h
    | cons a l ih =>
      intro i h
      unfold findFirst at h
      split at h
      · cases h; simp [*]
      · split at h
        · cases h
        · split at h
          · rename_i j hj
            cases h
            exact ih j hj
          · cases h
  error := by
    intro l x
    induction l with
    | nil => intro i _ h; cases h; simp
    | cons a l ih =>
      intro i hp h
      rw [List.pairwise_cons] at hp
      unfold findFirst at h
      split at h
      · cases h
      · split at h
        · rename_i h1 h2
          cases h
          refine ⟨Nat.zero_le _, by simp, ?_⟩
          intro j y _ hy
          cases j with
          | zero => cases hy; exact h2
          | succ j => exact lt_of_lt_of_le h2 (hp.1 y (List.mem_of_getElem? hy))
        · split at h
          · cases h
          · rename_i h1 h2 _ k hk
            cases h
            obtain ⟨e1, e2, e3⟩ := ih k hp.2 hk
            refine ⟨Nat.succ_le_succ e1, ?_, ?_⟩
            · intro j y hj hy
              cases j with
              | zero => cases hy; omega
              | succ j => exact e2 j y (by omega) hy
            · intro j y hj hy
              cases j with
              | zero => omega
              | succ j => exact e3 j y (by omega) hy

/-- Three allocations; the ZK memory has other things in between. -/
def demoPairs : List (Slice × Slice) := [(⟨0, 10⟩, ⟨10, 10⟩), (⟨20, 10⟩, ⟨30, 10⟩), (⟨30, 5⟩, ⟨90, 5⟩)]

/-- Example for C47: slices inside, across and between allocations. -/
example : (MemoryMap.inserts demoPairs).map (fun m =>
    ([⟨0, 10⟩, ⟨1, 8⟩, ⟨0, 11⟩, ⟨21, 3⟩, ⟨28, 4⟩, ⟨31, 2⟩, ⟨12, 3⟩, ⟨19, 2⟩] : List Slice).map (m.tryGet firstSearch)) =
    some [.ok ⟨10, 10⟩, .ok ⟨11, 8⟩, .err (), .ok ⟨31, 3⟩, .err (), .ok ⟨91, 2⟩, .err (), .err ()] := by decide

example : (∀ x ∈ demoPairs, 0 < x.1.len) ∧ demoPairs.Pairwise (fun a b => a.2.Disjoint b.2) := by
  simp [demoPairs, Slice.Disjoint]

example : (MemoryMap.inserts (demoPairs ++ [(⟨34, 1⟩, ⟨100, 1⟩)])) = none ∧ MemoryMap.inserts [(⟨5, 5⟩, ⟨20, 10⟩)] = none := by decide

/-- The condition of `C47_translates`: with an empty allocation and a search that finds the first of equal keys, the slice of the next
allocation cannot be translated. -/
theorem C47_empty_allocation : ∃ (B : BSearch) (l : List (Slice × Slice)) (m : MemoryMap), MemoryMap.inserts l = some m ∧
    (⟨5, 5⟩, ⟨7, 5⟩) ∈ l ∧ m.tryGet B ⟨5, 5⟩ = .err () :=
  ⟨firstSearch, [(⟨5, 0⟩, ⟨7, 0⟩), (⟨5, 5⟩, ⟨7, 5⟩)], ⟨[⟨5, 0⟩, ⟨5, 5⟩], [⟨7, 0⟩, ⟨7, 5⟩]⟩, by decide, by decide, by decide⟩

end Tlsn
