import Verif.Base.Basic

/-!
# Range sets

The `rangeset` crate (a dependency, not vendored in /repo) stores a set of `usize` as a
sorted list of non-empty, disjoint, non-adjacent ranges.  `RangeSet` is that
representation with its invariant.  The set operations are modelled by their set
meaning: `ofPred n p` is the canonical range list of `{ i < n | p i }`, and
`RangeSet.ext` shows that this representation is unique, so any correct implementation
of the crate's operations returns the same value.
-/

namespace Tlsn

/-- A half-open range `lo..hi`. -/
abbrev Rng := Nat × Nat

/-- Sorted, non-empty, pairwise separated ranges. -/
def Canon : List Rng → Prop
  | [] => True
  | [r] => r.1 < r.2
  | r :: s :: t => r.1 < r.2 ∧ r.2 < s.1 ∧ Canon (s :: t)

instance decCanon : (l : List Rng) → Decidable (Canon l)
  | [] => .isTrue trivial
  | [r] => inferInstanceAs (Decidable (r.1 < r.2))
  | r :: s :: t => by
      have := decCanon (s :: t)
      exact inferInstanceAs (Decidable (r.1 < r.2 ∧ r.2 < s.1 ∧ Canon (s :: t)))

/-- `rangeset::RangeSet<usize>` (used throughout /repo, e.g. crates/core/src/transcript.rs:17-22). -/
structure RangeSet where
  ranges : List Rng
  canon : Canon ranges

instance : DecidableEq RangeSet := fun a b =>
  match a, b with
  | ⟨x, _⟩, ⟨y, _⟩ =>
    if h : x = y then .isTrue (by subst h; rfl) else .isFalse (by intro e; cases e; exact h rfl)

/-- Membership of a position in a list of ranges. -/
def RangesMem (i : Nat) (l : List Rng) : Prop := ∃ r ∈ l, r.1 ≤ i ∧ i < r.2

instance (i : Nat) (l : List Rng) : Decidable (RangesMem i l) :=
  inferInstanceAs (Decidable (∃ r ∈ l, r.1 ≤ i ∧ i < r.2))

namespace RangeSet

instance : Membership Nat RangeSet := ⟨fun s i => RangesMem i s.ranges⟩

instance (i : Nat) (s : RangeSet) : Decidable (i ∈ s) :=
  inferInstanceAs (Decidable (RangesMem i s.ranges))

theorem mem_def {i : Nat} {s : RangeSet} : i ∈ s ↔ ∃ r ∈ s.ranges, r.1 ≤ i ∧ i < r.2 := Iff.rfl

/-- `RangeSet::default()`. -/
def empty : RangeSet := ⟨[], trivial⟩

instance : EmptyCollection RangeSet := ⟨empty⟩
instance : Inhabited RangeSet := ⟨empty⟩

@[simp] theorem not_mem_empty (i : Nat) : ¬ i ∈ (∅ : RangeSet) := by
  rintro ⟨r, h, _⟩; cases h

/-- `idx.len()`: number of positions. -/
def len (s : RangeSet) : Nat := (s.ranges.map fun r => r.2 - r.1).sum

/-- `idx.end()`: one past the last position, `None` for the empty set. -/
def «end» (s : RangeSet) : Option Nat := s.ranges.getLast?.map (·.2)

/-- `idx.end().unwrap_or(0)`. -/
def endD (s : RangeSet) : Nat := s.end.getD 0

/-- `idx.is_empty()`. -/
def isEmpty (s : RangeSet) : Bool := s.ranges.isEmpty

/-- `idx.iter_values()`: the positions in ascending order. -/
def values (s : RangeSet) : List Nat := s.ranges.flatMap fun r => List.range' r.1 (r.2 - r.1)

end RangeSet

/-- Maximal runs of `{ i < n | p i }`, last run first. -/
def revRuns (p : Nat → Bool) : Nat → List Rng
  | 0 => []
  | n + 1 =>
    if p n then
      match revRuns p n with
      | [] => [(n, n + 1)]
      | (lo, hi) :: t => if hi = n then (lo, n + 1) :: t else (n, n + 1) :: (lo, hi) :: t
    else revRuns p n

/-- Mirror image of `Canon` for lists with the last range first. -/
def RevCanon : List Rng → Prop
  | [] => True
  | [r] => r.1 < r.2
  | r :: s :: t => r.1 < r.2 ∧ s.2 < r.1 ∧ RevCanon (s :: t)

theorem Canon.tail {r : Rng} {l : List Rng} (h : Canon (r :: l)) : Canon l := by
  cases l with
  | nil => trivial
  | cons s t => exact h.2.2

theorem Canon.head {r : Rng} {l : List Rng} (h : Canon (r :: l)) : r.1 < r.2 := by
  cases l with
  | nil => exact h
  | cons s t => exact h.1

theorem Canon.head_lt {r : Rng} {l : List Rng} (h : Canon (r :: l)) :
    ∀ s ∈ l, r.2 < s.1 := by
  induction l generalizing r with
  | nil => simp
  | cons s t ih =>
    intro x hx
    rcases List.mem_cons.1 hx with rfl | hx
    · exact h.2.1
    · have := ih h.2.2 x hx
      have h1 := h.2.1
      have h2 := (h.2.2).head
      omega

theorem canon_cons {r : Rng} {l : List Rng} (h : r.1 < r.2) (hl : Canon l)
    (hs : ∀ s ∈ l, r.2 < s.1) : Canon (r :: l) := by
  cases l with
  | nil => exact h
  | cons s t => exact ⟨h, hs s (by simp), hl⟩

theorem Canon.nonempty {l : List Rng} (h : Canon l) : ∀ r ∈ l, r.1 < r.2 := by
  induction l with
  | nil => simp
  | cons s t ih =>
    intro r hr
    rcases List.mem_cons.1 hr with rfl | hr
    · exact h.head
    · exact ih h.tail r hr

theorem canon_append {a b : List Rng} (ha : Canon a) (hb : Canon b)
    (h : ∀ r ∈ a, ∀ s ∈ b, r.2 < s.1) : Canon (a ++ b) := by
  induction a with
  | nil => exact hb
  | cons r t ih =>
    refine canon_cons ha.head (ih ha.tail fun x hx => h x (by simp [hx])) ?_
    intro s hs
    rcases List.mem_append.1 hs with hs | hs
    · exact ha.head_lt s hs
    · exact h r (by simp) s hs

theorem RevCanon.tail {r : Rng} {l : List Rng} (h : RevCanon (r :: l)) : RevCanon l := by
  cases l with
  | nil => trivial
  | cons s t => exact h.2.2

theorem RevCanon.head {r : Rng} {l : List Rng} (h : RevCanon (r :: l)) : r.1 < r.2 := by
  cases l with
  | nil => exact h
  | cons s t => exact h.1

theorem RevCanon.head_lt {r : Rng} {l : List Rng} (h : RevCanon (r :: l)) :
    ∀ s ∈ l, s.2 < r.1 := by
  induction l generalizing r with
  | nil => simp
  | cons s t ih =>
    intro x hx
    rcases List.mem_cons.1 hx with rfl | hx
    · exact h.2.1
    · have := ih h.2.2 x hx
      have h1 := h.2.1
      have h2 := (h.2.2).head
      omega

theorem RevCanon.reverse {l : List Rng} (h : RevCanon l) : Canon l.reverse := by
  induction l with
  | nil => trivial
  | cons r t ih =>
    rw [List.reverse_cons]
    refine canon_append (ih h.tail) h.head ?_
    intro x hx s hs
    simp at hs; subst hs
    exact h.head_lt x (by simpa using hx)

theorem revRuns_spec (p : Nat → Bool) (n : Nat) :
    RevCanon (revRuns p n) ∧ (∀ r ∈ revRuns p n, r.2 ≤ n) ∧
      ∀ i, RangesMem i (revRuns p n) ↔ i < n ∧ p i = true := by
  induction n with
  | zero => simp [revRuns, RevCanon, RangesMem]
  | succ n ih =>
    obtain ⟨hc, hb, hm⟩ := ih
    unfold revRuns
    by_cases hp : p n = true
    · simp only [hp, if_true]
      split
      · rename_i heq
        rw [heq] at hm
        refine ⟨Nat.lt_succ_self n, by simp, ?_⟩
        intro i
        have := hm i
        simp only [RangesMem, List.not_mem_nil, false_and, exists_false, false_iff,
          List.mem_singleton, exists_eq_left] at *
        constructor
        · intro h; have : i = n := by omega
          subst this; exact ⟨by omega, hp⟩
        · intro ⟨h1, h2⟩
          have : ¬ i < n := fun h => this ⟨h, h2⟩
          omega
      · rename_i lo hi t heq
        rw [heq] at hm hc hb
        have hlo : lo < hi := hc.head
        have hhi : hi ≤ n := hb (lo, hi) (by simp)
        have hmem : ∀ i, RangesMem i ((lo, hi) :: t) ↔ (lo ≤ i ∧ i < hi) ∨ RangesMem i t := by
          intro i; simp [RangesMem]
        split
        · rename_i he
          subst he
          refine ⟨?_, ?_, ?_⟩
          · cases t with
            | nil => show lo < hi + 1; omega
            | cons s t => exact ⟨by show lo < hi + 1; omega, hc.2.1, hc.2.2⟩
          · intro r hr
            rcases List.mem_cons.1 hr with rfl | hr
            · simp
            · have := hb r (by simp [hr]); omega
          · intro i
            have h1 := hm i
            rw [hmem i] at h1
            have h2 : RangesMem i ((lo, hi + 1) :: t) ↔ (lo ≤ i ∧ i < hi + 1) ∨ RangesMem i t := by
              simp [RangesMem]
            rw [h2]
            by_cases hi' : i = hi
            · subst hi'; simp [hp]; left; omega
            · constructor
              · intro h
                have := h1.1 (by rcases h with h | h; left; omega; right; exact h)
                exact ⟨by omega, this.2⟩
              · intro ⟨h3, h4⟩
                rcases h1.2 ⟨by omega, h4⟩ with h | h
                · left; omega
                · right; exact h
        · rename_i he
          refine ⟨⟨Nat.lt_succ_self n, by show hi < n; omega, hc⟩, ?_, ?_⟩
          · intro r hr
            rcases List.mem_cons.1 hr with rfl | hr
            · simp
            · have := hb r hr; omega
          · intro i
            have h1 := hm i
            have h2 : RangesMem i ((n, n + 1) :: (lo, hi) :: t) ↔
                (n ≤ i ∧ i < n + 1) ∨ RangesMem i ((lo, hi) :: t) := by
              simp [RangesMem]
            rw [h2, h1]
            by_cases hi' : i = n
            · subst hi'; simp [hp]
            · constructor
              · rintro (h | h)
                · omega
                · exact ⟨by omega, h.2⟩
              · intro ⟨h3, h4⟩; right; exact ⟨by omega, h4⟩
    · simp only [hp, Bool.false_eq_true, if_false]
      refine ⟨hc, fun r hr => by have := hb r hr; omega, ?_⟩
      intro i
      rw [hm i]
      by_cases hi : i = n
      · subst hi; simp [hp]
      · constructor <;> intro ⟨h1, h2⟩ <;> exact ⟨by omega, h2⟩

namespace RangeSet

/-- The canonical range set `{ i < n | p i }`. -/
def ofPred (n : Nat) (p : Nat → Bool) : RangeSet :=
  ⟨(revRuns p n).reverse, (revRuns_spec p n).1.reverse⟩

@[simp] theorem mem_ofPred {n : Nat} {p : Nat → Bool} {i : Nat} :
    i ∈ ofPred n p ↔ i < n ∧ p i = true := by
  rw [← (revRuns_spec p n).2.2 i]
  simp [mem_def, ofPred, RangesMem]

/-- The set of a single Rust range `lo..hi` (empty when `hi ≤ lo`). -/
def ofRange (lo hi : Nat) : RangeSet := ofPred hi (fun i => decide (lo ≤ i))

@[simp] theorem mem_ofRange {lo hi i : Nat} : i ∈ ofRange lo hi ↔ lo ≤ i ∧ i < hi := by
  simp [ofRange]; omega

/-- `a.union(b)` / `union_mut`. -/
def union (a b : RangeSet) : RangeSet :=
  ofPred (max a.endD b.endD) (fun i => decide (i ∈ a) || decide (i ∈ b))

/-- `a.difference(b)`. -/
def diff (a b : RangeSet) : RangeSet :=
  ofPred a.endD (fun i => decide (i ∈ a) && !decide (i ∈ b))

/-- `a.intersection(b)`. -/
def inter (a b : RangeSet) : RangeSet :=
  ofPred a.endD (fun i => decide (i ∈ a) && decide (i ∈ b))

/-- `RangeSet::from_range_iter`: union of arbitrary (overlapping, empty, reversed) ranges. -/
def ofRanges (l : List Rng) : RangeSet :=
  l.foldl (fun acc r => acc.union (ofRange r.1 r.2)) ∅

/-- Set inclusion as a predicate. -/
def Subset (a b : RangeSet) : Prop := ∀ i, i ∈ a → i ∈ b

instance : HasSubset RangeSet := ⟨Subset⟩

theorem subset_def {a b : RangeSet} : a ⊆ b ↔ ∀ i, i ∈ a → i ∈ b := Iff.rfl

theorem mem_lt_endD {s : RangeSet} {i : Nat} (h : i ∈ s) : i < s.endD := by
  obtain ⟨l, hl⟩ := s
  induction l generalizing i with
  | nil => obtain ⟨r, hr, _⟩ := h; cases hr
  | cons r t ih =>
    cases t with
    | nil =>
      obtain ⟨x, hx, h1, h2⟩ := h
      simp at hx; subst hx
      simpa [endD, «end»] using h2
    | cons s t =>
      have e : endD ⟨r :: s :: t, hl⟩ = endD ⟨s :: t, hl.tail⟩ := by
        simp [endD, «end»]
      rw [e]
      obtain ⟨x, hx, h1, h2⟩ := h
      rcases List.mem_cons.1 hx with rfl | hx
      · have h3 : s.1 ∈ (⟨s :: t, hl.tail⟩ : RangeSet) :=
          ⟨s, by simp, Nat.le_refl _, hl.tail.head⟩
        have := ih hl.tail h3
        have := hl.2.1
        omega
      · exact ih hl.tail ⟨x, hx, h1, h2⟩

theorem endD_eq_succ {s : RangeSet} (h : s.endD ≠ 0) : s.endD - 1 ∈ s := by
  obtain ⟨l, hl⟩ := s
  cases hg : l.getLast? with
  | none => simp [endD, «end», hg] at h
  | some r =>
    have hr : r ∈ l := List.mem_of_getLast? hg
    have := hl.nonempty r hr
    refine ⟨r, hr, ?_⟩
    simp [endD, «end», hg]; omega

/-- A set is in bounds iff all its members are. -/
theorem endD_le_iff {s : RangeSet} {n : Nat} : s.endD ≤ n ↔ ∀ i ∈ s, i < n := by
  constructor
  · intro h i hi; have := mem_lt_endD hi; omega
  · intro h
    by_cases h0 : s.endD = 0
    · omega
    · have := h _ (endD_eq_succ h0); omega

@[simp] theorem mem_union {a b : RangeSet} {i : Nat} : i ∈ a.union b ↔ i ∈ a ∨ i ∈ b := by
  simp only [union, mem_ofPred, Bool.or_eq_true, decide_eq_true_eq]
  constructor
  · exact fun h => h.2
  · intro h; refine ⟨?_, h⟩
    rcases h with h | h <;> have := mem_lt_endD h <;> omega

@[simp] theorem mem_diff {a b : RangeSet} {i : Nat} : i ∈ a.diff b ↔ i ∈ a ∧ ¬ i ∈ b := by
  simp only [diff, mem_ofPred, Bool.and_eq_true, decide_eq_true_eq, Bool.not_eq_true',
    decide_eq_false_iff_not]
  constructor
  · exact fun h => h.2
  · intro h; exact ⟨mem_lt_endD h.1, h⟩

@[simp] theorem mem_inter {a b : RangeSet} {i : Nat} : i ∈ a.inter b ↔ i ∈ a ∧ i ∈ b := by
  simp only [inter, mem_ofPred, Bool.and_eq_true, decide_eq_true_eq]
  constructor
  · exact fun h => h.2
  · intro h; exact ⟨mem_lt_endD h.1, h⟩

theorem mem_foldl_union (l : List Rng) (acc : RangeSet) (i : Nat) :
    i ∈ l.foldl (fun acc r => acc.union (ofRange r.1 r.2)) acc ↔
      i ∈ acc ∨ ∃ r ∈ l, r.1 ≤ i ∧ i < r.2 := by
  induction l generalizing acc with
  | nil => simp
  | cons r t ih => simp [ih, or_assoc]

@[simp] theorem mem_ofRanges {l : List Rng} {i : Nat} :
    i ∈ ofRanges l ↔ ∃ r ∈ l, r.1 ≤ i ∧ i < r.2 := by
  simp [ofRanges, mem_foldl_union]

theorem canon_ext {a b : List Rng} (ha : Canon a) (hb : Canon b)
    (h : ∀ i, RangesMem i a ↔ RangesMem i b) : a = b := by
  induction a generalizing b with
  | nil =>
    cases b with
    | nil => rfl
    | cons s t =>
      have : RangesMem s.1 (s :: t) := ⟨s, by simp, Nat.le_refl _, hb.head⟩
      obtain ⟨r, hr, _⟩ := (h _).2 this
      cases hr
  | cons r a ih =>
    cases b with
    | nil =>
      have : RangesMem r.1 (r :: a) := ⟨r, by simp, Nat.le_refl _, ha.head⟩
      obtain ⟨s, hs, _⟩ := (h _).1 this
      cases hs
    | cons s b =>
      have hcons : ∀ (r : Rng) l i, RangesMem i (r :: l) ↔ (r.1 ≤ i ∧ i < r.2) ∨ RangesMem i l := by
        intro r l i; simp [RangesMem]
      have gt : ∀ {r : Rng} {l i}, Canon (r :: l) → RangesMem i l → r.2 < i := by
        intro r l i hc ⟨x, hx, h1, _⟩
        have := hc.head_lt x hx; omega
      have hr := ha.head
      have hs := hb.head
      have e1 : r.1 = s.1 := by
        have h1 : RangesMem r.1 (r :: a) := ⟨r, by simp, Nat.le_refl _, hr⟩
        have h2 : RangesMem s.1 (s :: b) := ⟨s, by simp, Nat.le_refl _, hs⟩
        rcases (hcons _ _ _).1 ((h _).1 h1) with h3 | h3
        · rcases (hcons _ _ _).1 ((h _).2 h2) with h4 | h4
          · omega
          · have := gt ha h4; omega
        · have := gt hb h3
          rcases (hcons _ _ _).1 ((h _).2 h2) with h4 | h4
          · omega
          · have := gt ha h4; omega
      have e2 : r.2 = s.2 := by
        rcases Nat.lt_trichotomy r.2 s.2 with hlt | heq | hlt
        · have h1 : RangesMem r.2 (s :: b) := ⟨s, by simp, by omega, hlt⟩
          rcases (hcons _ _ _).1 ((h _).2 h1) with h4 | h4
          · omega
          · have := gt ha h4; omega
        · exact heq
        · have h1 : RangesMem s.2 (r :: a) := ⟨r, by simp, by omega, hlt⟩
          rcases (hcons _ _ _).1 ((h _).1 h1) with h4 | h4
          · omega
          · have := gt hb h4; omega
      have e : r = s := Prod.ext e1 e2
      subst e
      congr 1
      refine ih ha.tail hb.tail ?_
      intro i
      constructor
      · intro hi
        rcases (hcons _ _ _).1 ((h i).1 ((hcons _ _ _).2 (.inr hi))) with h4 | h4
        · have := gt ha hi; omega
        · exact h4
      · intro hi
        rcases (hcons _ _ _).1 ((h i).2 ((hcons _ _ _).2 (.inr hi))) with h4 | h4
        · have := gt hb hi; omega
        · exact h4

/-- The canonical representation is unique: equal sets are equal values. -/
theorem ext {a b : RangeSet} (h : ∀ i, i ∈ a ↔ i ∈ b) : a = b := by
  obtain ⟨a, ha⟩ := a
  obtain ⟨b, hb⟩ := b
  have : a = b := canon_ext ha hb h
  subst this; rfl

theorem ext_iff {a b : RangeSet} : a = b ↔ ∀ i, i ∈ a ↔ i ∈ b :=
  ⟨fun h => by simp [h], ext⟩

/-- `a.is_subset(b)`. -/
def isSubset (a b : RangeSet) : Bool := (a.diff b).isEmpty

theorem isEmpty_iff {s : RangeSet} : s.isEmpty = true ↔ ∀ i, ¬ i ∈ s := by
  obtain ⟨l, hl⟩ := s
  cases l with
  | nil => simp [isEmpty, mem_def]
  | cons r t =>
    simp only [isEmpty, List.isEmpty_cons, Bool.false_eq_true, false_iff]
    intro h
    exact h r.1 ⟨r, by simp, Nat.le_refl _, hl.head⟩

@[simp] theorem isSubset_iff {a b : RangeSet} : a.isSubset b = true ↔ a ⊆ b := by
  simp only [isSubset, isEmpty_iff, mem_diff, subset_def, not_and, Classical.not_not]

theorem isEmpty_iff_eq {s : RangeSet} : s.isEmpty = true ↔ s = ∅ := by
  rw [isEmpty_iff, ext_iff]; simp

@[simp] theorem union_empty (a : RangeSet) : a.union ∅ = a := ext (by simp)
@[simp] theorem empty_union (a : RangeSet) : (∅ : RangeSet).union a = a := ext (by simp)
theorem union_comm (a b : RangeSet) : a.union b = b.union a := ext (by simp [or_comm])
theorem union_assoc (a b c : RangeSet) : (a.union b).union c = a.union (b.union c) :=
  ext (by simp [or_assoc])
@[simp] theorem union_self (a : RangeSet) : a.union a = a := ext (by simp)

theorem mem_values {s : RangeSet} {i : Nat} : i ∈ s.values ↔ i ∈ s := by
  simp only [values, List.mem_flatMap, List.mem_range'_1, mem_def]
  constructor
  · rintro ⟨r, hr, h1, h2⟩; exact ⟨r, hr, h1, by have := s.canon.nonempty r hr; omega⟩
  · rintro ⟨r, hr, h1, h2⟩; exact ⟨r, hr, h1, by omega⟩

theorem values_length (s : RangeSet) : s.values.length = s.len := by
  simp [values, len, List.length_flatMap]

theorem values_sorted (s : RangeSet) : s.values.Pairwise (· < ·) := by
  obtain ⟨l, hl⟩ := s
  induction l with
  | nil => simp [values]
  | cons r t ih =>
    have hv : values ⟨r :: t, hl⟩ = List.range' r.1 (r.2 - r.1) ++ values ⟨t, hl.tail⟩ := by
      simp [values]
    rw [hv, List.pairwise_append]
    refine ⟨List.pairwise_lt_range', ih hl.tail, ?_⟩
    intro a ha b hb
    rw [mem_values] at hb
    obtain ⟨x, hx, h1, h2⟩ := hb
    have := hl.head_lt x hx
    have := hl.head
    simp [List.mem_range'_1] at ha
    omega

theorem endD_le_of_subset {a b : RangeSet} (h : a ⊆ b) {n : Nat} (hb : b.endD ≤ n) :
    a.endD ≤ n := by
  rw [endD_le_iff] at *; exact fun i hi => hb i (h i hi)

end RangeSet

end Tlsn
