import Verif.Merkle.Model
import Verif.Proof.Spec

/-!
# Lemmas about Merkle layers
-/

namespace Tlsn

variable {H : Bytes → Digest}

theorem parentLayer_length (l : List Digest) : (parentLayer H l).length = halfUp l.length := by
  fun_induction parentLayer H l with
  | case1 a b t ih => simp only [List.length_cons, ih, halfUp]; omega
  | case2 l h =>
    match l, h with
    | [], _ => rfl
    | [a], _ => simp [halfUp]
    | a :: b :: t, h => exact absurd rfl (h a b t)

theorem parentLayer_pair (l : List Digest) (i : Nat) {a b : Digest}
    (ha : l[2 * i]? = some a) (hb : l[2 * i + 1]? = some b) :
    (parentLayer H l)[i]? = some (H (a ++ b)) := by
  fun_induction parentLayer H l generalizing i with
  | case1 x y t ih =>
    cases i with
    | zero => simp at ha hb; simp [ha, hb]
    | succ i =>
      rw [List.getElem?_cons_succ]
      apply ih
      · simpa [Nat.mul_succ] using ha
      · simpa [Nat.mul_succ] using hb
  | case2 l h =>
    match l, h with
    | [], _ => simp at ha
    | [a], _ => simp at hb
    | a :: b :: t, h => exact absurd rfl (h a b t)

theorem parentLayer_last (l : List Digest) (i : Nat) (hl : l.length = 2 * i + 1) :
    (parentLayer H l)[i]? = l[2 * i]? := by
  fun_induction parentLayer H l generalizing i with
  | case1 x y t ih =>
    cases i with
    | zero => simp at hl
    | succ i =>
      rw [List.getElem?_cons_succ, ih i (by simp at hl; omega)]
      simp [Nat.mul_succ]
  | case2 l h =>
    match l, h with
    | [], _ => simp at hl
    | [a], _ =>
      have : i = 0 := by simp at hl; omega
      subst this; rfl
    | a :: b :: t, h => exact absurd rfl (h a b t)

/-- All entries have the same length. -/
def AllLen (N : Nat) (l : List Digest) : Prop := ∀ h ∈ l, h.length = N

theorem AllLen.get {N : Nat} {l : List Digest} (h : AllLen N l) {i : Nat} {a : Digest}
    (ha : l[i]? = some a) : a.length = N := h a (List.mem_of_getElem? ha)

theorem AllLen.parent {N : Nat} (hN : ∀ x, (H x).length = N) {l : List Digest}
    (h : AllLen N l) : AllLen N (parentLayer H l) := by
  fun_induction parentLayer H l with
  | case1 a b t ih =>
    intro x hx
    rcases List.mem_cons.1 hx with rfl | hx
    · exact hN _
    · exact ih (fun y hy => h y (by simp [hy])) x hx
  | case2 l _ => exact h

/-- Sorted nodes of a layer with `n` nodes, with hashes of length `N`. -/
structure Nodes (N n : Nat) (l : List (Nat × Digest)) : Prop where
  sorted : l.Pairwise (fun a b => a.1 < b.1)
  bound : ∀ x ∈ l, x.1 < n
  len : ∀ x ∈ l, x.2.length = N

theorem Nodes.tail {N n : Nat} {x} {l : List (Nat × Digest)} (h : Nodes N n (x :: l)) :
    Nodes N n l :=
  ⟨(List.pairwise_cons.1 h.sorted).2, fun y hy => h.bound y (by simp [hy]),
    fun y hy => h.len y (by simp [hy])⟩

theorem climb_lower {n lo : Nat} {nodes : List (Nat × Digest)} {ps : List Digest}
    {r : List (Nat × Digest) × List Digest} (h : climb H n nodes ps = some r)
    (hlo : ∀ x ∈ nodes, lo ≤ x.1) : ∀ y ∈ r.1, lo / 2 ≤ y.1 := by
  fun_induction climb H n nodes ps generalizing r with
  | case1 ps => cases h; simp
  | case2 i h1 ps hi h' rest' ih =>
    obtain ⟨r', h2, rfl⟩ := Option.map_eq_some_iff.1 h
    intro y hy
    rcases List.mem_cons.1 hy with rfl | hy
    · have := hlo (i, h1) (by simp); simp only at this ⊢; omega
    · exact ih h2 (fun x hx => hlo x (by simp [hx])) y hy
  | case3 => cases h
  | case4 i h1 hi j h' rest' hj p ps' ih =>
    obtain ⟨r', h2, rfl⟩ := Option.map_eq_some_iff.1 h
    intro y hy
    rcases List.mem_cons.1 hy with rfl | hy
    · have := hlo (i, h1) (by simp); simp only at this ⊢; omega
    · exact ih h2 (fun x hx => hlo x (by simp_all)) y hy
  | case5 i h1 ps hi hn =>
    cases h
    intro y hy
    simp at hy; subst hy
    have := hlo (i, h1) (by simp); simp only at this ⊢; omega
  | case6 => cases h
  | case7 i h1 hi hn p ps' =>
    cases h
    intro y hy
    simp at hy; subst hy
    have := hlo (i, h1) (by simp); simp only at this ⊢; omega
  | case8 => cases h
  | case9 i h1 rest hi p ps' ih =>
    obtain ⟨r', h2, rfl⟩ := Option.map_eq_some_iff.1 h
    intro y hy
    rcases List.mem_cons.1 hy with rfl | hy
    · have := hlo (i, h1) (by simp); simp only at this ⊢; omega
    · exact ih h2 (fun x hx => hlo x (by simp [hx])) y hy

theorem climb_nodes {N n : Nat} (hN : ∀ x, (H x).length = N) {nodes : List (Nat × Digest)}
    {ps : List Digest} {r : List (Nat × Digest) × List Digest} (h : climb H n nodes ps = some r)
    (hn : Nodes N n nodes) : Nodes N (halfUp n) r.1 := by
  have cons : ∀ {i : Nat} {d : Digest} {l : List (Nat × Digest)} {r' : List (Nat × Digest) × List Digest}
      {ps' : List Digest}, Nodes N (halfUp n) r'.1 → climb H n l ps' = some r' →
      (∀ x ∈ l, 2 * (i / 2 + 1) ≤ x.1) → i < n → d.length = N →
      Nodes N (halfUp n) ((i / 2, d) :: r'.1) := by
    intro i d l r' ps' h1 h2 h3 h4 h5
    refine ⟨List.pairwise_cons.2 ⟨fun y hy => ?_, h1.sorted⟩, ?_, ?_⟩
    · have := climb_lower h2 h3 y hy
      simp only; omega
    · intro x hx
      rcases List.mem_cons.1 hx with rfl | hx
      · simp only [halfUp]; omega
      · exact h1.bound x hx
    · intro x hx
      rcases List.mem_cons.1 hx with rfl | hx
      · exact h5
      · exact h1.len x hx
  have single : ∀ {i : Nat} {d : Digest}, i < n → d.length = N →
      Nodes N (halfUp n) [(i / 2, d)] := by
    intro i d h4 h5
    refine ⟨List.pairwise_singleton .., ?_, ?_⟩
    · intro x hx; simp at hx; subst hx; simp only [halfUp]; omega
    · intro x hx; simp at hx; subst hx; exact h5
  fun_induction climb H n nodes ps generalizing r with
  | case1 ps => cases h; exact ⟨List.Pairwise.nil, by simp, by simp⟩
  | case2 i h1 ps hi h' rest' ih =>
    obtain ⟨r', h2, rfl⟩ := Option.map_eq_some_iff.1 h
    have hs := List.pairwise_cons.1 hn.tail.sorted
    refine cons (ih h2 hn.tail.tail) h2 ?_ (hn.bound (i, h1) (by simp)) (hN _)
    intro x hx
    have := hs.1 x hx
    simp only at this; omega
  | case3 => cases h
  | case4 i h1 hi j h' rest' hj p ps' ih =>
    obtain ⟨r', h2, rfl⟩ := Option.map_eq_some_iff.1 h
    have hs := List.pairwise_cons.1 hn.sorted
    have hs' := List.pairwise_cons.1 hn.tail.sorted
    refine cons (ih h2 hn.tail) h2 ?_ (hn.bound (i, h1) (by simp)) (hN _)
    have hj' := hs.1 (j, h') (by simp)
    simp only at hj'
    intro x hx
    rcases List.mem_cons.1 hx with rfl | hx
    · simp only; omega
    · have := hs'.1 x hx
      simp only at this; omega
  | case5 i h1 ps hi hn' =>
    cases h
    exact single (hn.bound (i, h1) (by simp)) (hn.len (i, h1) (by simp))
  | case6 => cases h
  | case7 i h1 hi hn' p ps' =>
    cases h
    exact single (hn.bound (i, h1) (by simp)) (hN _)
  | case8 => cases h
  | case9 i h1 rest hi p ps' ih =>
    obtain ⟨r', h2, rfl⟩ := Option.map_eq_some_iff.1 h
    have hs := List.pairwise_cons.1 hn.sorted
    refine cons (ih h2 hn.tail) h2 ?_ (hn.bound (i, h1) (by simp)) (hN _)
    intro x hx
    have := hs.1 x hx
    simp only at this; omega

theorem climb_ne_nil {n : Nat} {nodes : List (Nat × Digest)} {ps : List Digest}
    {r : List (Nat × Digest) × List Digest} (h : climb H n nodes ps = some r)
    (hne : nodes ≠ []) : r.1 ≠ [] := by
  fun_cases climb H n nodes ps <;> unfold climb at h <;> simp_all
  all_goals
    obtain ⟨_, _, _, _, rfl⟩ := h
    simp

/-- A hash function with an explicit collision. -/
def HashCollision (H : Bytes → Digest) : Prop := ∃ x y : Bytes, x ≠ y ∧ H x = H y

/-- The known nodes carry the hashes of the honest layer. -/
def Agrees (full : List Digest) (nodes : List (Nat × Digest)) : Prop :=
  ∀ x ∈ nodes, full[x.1]? = some x.2

theorem climb_binding {N n : Nat} {nodes : List (Nat × Digest)} {ps : List Digest}
    {r : List (Nat × Digest) × List Digest} (h : climb H n nodes ps = some r)
    (hn : Nodes N n nodes) {full : List Digest} (hf : full.length = n) (hl : AllLen N full)
    (ha : Agrees (parentLayer H full) r.1) : Agrees full nodes ∨ HashCollision H := by
  -- the two children of a parent that agrees
  have pair : ∀ {i : Nat} {x : Bytes}, i % 2 = 0 → i + 1 < n →
      (parentLayer H full)[i / 2]? = some (H x) →
      (∃ a b, full[i]? = some a ∧ full[i + 1]? = some b ∧ a.length = N ∧ b.length = N ∧ x = a ++ b) ∨
        HashCollision H := by
    intro i x hi hin hx
    obtain ⟨a, haa⟩ : ∃ a, full[i]? = some a :=
      ⟨_, List.getElem?_eq_getElem (by omega)⟩
    obtain ⟨b, hb⟩ : ∃ b, full[i + 1]? = some b :=
      ⟨_, List.getElem?_eq_getElem (by omega)⟩
    have e : 2 * (i / 2) = i := by omega
    have := parentLayer_pair (H := H) full (i / 2) (by rw [e]; exact haa) (by rw [e]; exact hb)
    rw [this] at hx
    by_cases hc : x = a ++ b
    · exact .inl ⟨a, b, haa, hb, hl.get haa, hl.get hb, hc⟩
    · exact .inr ⟨x, a ++ b, hc, (Option.some.inj hx).symm⟩
  fun_induction climb H n nodes ps generalizing r with
  | case1 ps => left; simp [Agrees]
  | case2 i h1 ps hi h' rest' ih =>
    obtain ⟨r', h2, rfl⟩ := Option.map_eq_some_iff.1 h
    have hb := hn.bound (i + 1, h') (by simp)
    rcases pair hi hb (ha (i / 2, _) List.mem_cons_self) with ⟨a, b, e1, e2, l1, l2, e⟩ | hc
    · rcases ih h2 hn.tail.tail (fun x hx => ha x (by simp [hx])) with hr | hc
      · left
        obtain ⟨rfl, rfl⟩ := List.append_inj e (by rw [l1]; exact hn.len (i, h1) (by simp))
        intro x hx
        simp only [List.mem_cons] at hx
        rcases hx with rfl | rfl | hx
        · exact e1
        · exact e2
        · exact hr x hx
      · exact .inr hc
    · exact .inr hc
  | case3 => cases h
  | case4 i h1 hi j h' rest' hj p ps' ih =>
    obtain ⟨r', h2, rfl⟩ := Option.map_eq_some_iff.1 h
    have hs := List.pairwise_cons.1 hn.sorted
    have hj' := hs.1 (j, h') (by simp)
    have hb := hn.bound (j, h') (by simp)
    simp only at hj' hb
    rcases pair hi (by omega) (ha (i / 2, _) List.mem_cons_self) with ⟨a, b, e1, e2, l1, l2, e⟩ | hc
    · rcases ih h2 hn.tail (fun x hx => ha x (by simp [hx])) with hr | hc
      · left
        obtain ⟨rfl, rfl⟩ := List.append_inj e (by rw [l1]; exact hn.len (i, h1) (by simp))
        intro x hx
        rcases List.mem_cons.1 hx with rfl | hx
        · exact e1
        · exact hr x hx
      · exact .inr hc
    · exact .inr hc
  | case5 i h1 ps hi hn' =>
    cases h
    left
    intro x hx
    simp at hx; subst hx
    have := ha (i / 2, h1) (by simp)
    rw [parentLayer_last (H := H) full (i / 2) (by omega)] at this
    rwa [show 2 * (i / 2) = i by omega] at this
  | case6 => cases h
  | case7 i h1 hi hn' p ps' =>
    cases h
    have hb := hn.bound (i, h1) (by simp)
    simp only at hb
    rcases pair hi (by omega) (ha (i / 2, _) List.mem_cons_self) with ⟨a, b, e1, e2, l1, l2, e⟩ | hc
    · left
      obtain ⟨rfl, rfl⟩ := List.append_inj e (by rw [l1]; exact hn.len (i, h1) (by simp))
      intro x hx
      simp at hx; subst hx; exact e1
    · exact .inr hc
  | case8 => cases h
  | case9 i h1 rest hi p ps' ih =>
    obtain ⟨r', h2, rfl⟩ := Option.map_eq_some_iff.1 h
    have hb := hn.bound (i, h1) (by simp)
    have hp := ha (i / 2, H (p ++ h1)) (by simp)
    simp only at hb hp
    rw [show i / 2 = (i - 1) / 2 by omega] at hp
    rcases pair (i := i - 1) (by omega) (by omega) hp with ⟨a, b, e1, e2, l1, l2, e⟩ | hc
    · rcases ih h2 hn.tail (fun x hx => ha x (by simp [hx])) with hr | hc
      · left
        obtain ⟨rfl, rfl⟩ := List.append_inj' e (by rw [l2]; exact hn.len (i, h1) (by simp))
        intro x hx
        rcases List.mem_cons.1 hx with rfl | hx
        · rwa [show i - 1 + 1 = i by omega] at e2
        · exact hr x hx
      · exact .inr hc
    · exact .inr hc

theorem climbAll_nodes {N k n : Nat} (hN : ∀ x, (H x).length = N) {nodes : List (Nat × Digest)} {top : List (Nat × Digest) × List Digest}
    {ps : List Digest} (h : climbAll H k n nodes ps = some top) (hn : Nodes N n nodes) :
    Nodes N (halfUp^[k] n) top.1 := by
  induction k generalizing n nodes ps with
  | zero => cases h; exact hn
  | succ k ih =>
    obtain ⟨r, h1, h2⟩ := Option.bind_eq_some_iff.1 h
    exact ih h2 (climb_nodes hN h1 hn)

theorem climbAll_ne_nil {k n : Nat} {nodes : List (Nat × Digest)} {top : List (Nat × Digest) × List Digest}
    {ps : List Digest} (h : climbAll H k n nodes ps = some top) (hne : nodes ≠ []) : top.1 ≠ [] := by
  induction k generalizing n nodes ps with
  | zero => cases h; exact hne
  | succ k ih =>
    obtain ⟨r, h1, h2⟩ := Option.bind_eq_some_iff.1 h
    exact ih h2 (climb_ne_nil h1 hne)

theorem climbAll_binding {N k n : Nat} (hN : ∀ x, (H x).length = N)
    {nodes : List (Nat × Digest)} {top : List (Nat × Digest) × List Digest} {ps : List Digest}
    (h : climbAll H k n nodes ps = some top) (hn : Nodes N n nodes)
    {full : List Digest} (hf : full.length = n) (hl : AllLen N full)
    (ha : Agrees (layerUp H k full) top.1) : Agrees full nodes ∨ HashCollision H := by
  induction k generalizing n nodes ps full with
  | zero => cases h; exact .inl ha
  | succ k ih =>
    obtain ⟨r, h1, h2⟩ := Option.bind_eq_some_iff.1 h
    rcases ih h2 (climb_nodes hN h1 hn) (by rw [parentLayer_length, hf]) (hl.parent hN) ha with h3 | h3
    · exact climb_binding h1 hn hf hl h3
    · exact .inr h3

theorem halfUp_iterate_le (k n : Nat) (h : n ≤ 2 ^ k) : halfUp^[k] n ≤ 1 := by
  induction k generalizing n with
  | zero => simpa using h
  | succ k ih =>
    rw [Function.iterate_succ_apply]
    apply ih
    rw [Nat.pow_succ] at h
    unfold halfUp; omega

theorem halfUp_treeDepth_le (n : Nat) : halfUp^[treeDepth n] n ≤ 1 := by
  apply halfUp_iterate_le
  unfold treeDepth
  split
  · subst n; decide
  · exact Nat.le_pow_clog (by decide) n

/-! ## Honest proofs -/

theorem climb_pair {n i : Nat} (hi : i % 2 = 0) (a b : Digest) (l : List (Nat × Digest))
    (ps : List Digest) : climb H n ((i, a) :: (i + 1, b) :: l) ps =
      (climb H n l ps).map fun r => ((i / 2, H (a ++ b)) :: r.1, r.2) := by
  rw [climb.eq_def]; simp [hi]

theorem climb_gap {n i j : Nat} (hi : i % 2 = 0) (hj : j ≠ i + 1) (a b p : Digest)
    (l : List (Nat × Digest)) (ps : List Digest) :
    climb H n ((i, a) :: (j, b) :: l) (p :: ps) =
      (climb H n ((j, b) :: l) ps).map fun r => ((i / 2, H (a ++ p)) :: r.1, r.2) := by
  rw [climb.eq_def]; simp [hi, hj]

theorem climb_gap_nil {n i j : Nat} (hi : i % 2 = 0) (hj : j ≠ i + 1) (a b : Digest)
    (l : List (Nat × Digest)) : climb H n ((i, a) :: (j, b) :: l) [] = none := by
  rw [climb.eq_def]; simp [hi, hj]

theorem climb_promote {n i : Nat} (hi : i % 2 = 0) (hn : i + 1 = n) (a : Digest)
    (ps : List Digest) : climb H n [(i, a)] ps = some ([(i / 2, a)], ps) := by
  rw [climb.eq_def]; simp [hi, hn]

theorem climb_end {n i : Nat} (hi : i % 2 = 0) (hn : i + 1 ≠ n) (a p : Digest)
    (ps : List Digest) : climb H n [(i, a)] (p :: ps) = some ([(i / 2, H (a ++ p))], ps) := by
  rw [climb.eq_def]; simp [hi, hn]

theorem climb_end_nil {n i : Nat} (hi : i % 2 = 0) (hn : i + 1 ≠ n) (a : Digest) :
    climb H n [(i, a)] [] = none := by
  rw [climb.eq_def]; simp [hi, hn]

theorem climb_odd {n i : Nat} (hi : ¬ i % 2 = 0) (a p : Digest) (l : List (Nat × Digest))
    (ps : List Digest) : climb H n ((i, a) :: l) (p :: ps) =
      (climb H n l ps).map fun r => ((i / 2, H (p ++ a)) :: r.1, r.2) := by
  rw [climb.eq_def]; simp [hi]

theorem climb_odd_nil {n i : Nat} (hi : ¬ i % 2 = 0) (a : Digest) (l : List (Nat × Digest)) :
    climb H n ((i, a) :: l) [] = none := by
  rw [climb.eq_def]; simp [hi]

/-- The nodes of a layer at the given indices. -/
def nodesOf (full : List Digest) (idxs : List Nat) : List (Nat × Digest) :=
  idxs.map fun i => (i, full[i]?.getD [])

theorem parentLayer_getD_pair (full : List Digest) (i : Nat) (hi : i % 2 = 0)
    (hl : i + 1 < full.length) :
    (parentLayer H full)[i / 2]?.getD [] = H (full[i]?.getD [] ++ full[i + 1]?.getD []) := by
  have e : 2 * (i / 2) = i := by omega
  rw [parentLayer_pair (a := full[i]) (b := full[i + 1]) full (i / 2)
    (by rw [e]; exact List.getElem?_eq_getElem _) (by rw [e]; exact List.getElem?_eq_getElem _)]
  rw [List.getElem?_eq_getElem (by omega), List.getElem?_eq_getElem hl]
  rfl

theorem climb_complete (full : List Digest) (idxs : List Nat) (hs : idxs.Pairwise (· < ·))
    (hb : ∀ i ∈ idxs, i < full.length) (rest : List Digest) :
    climb H full.length (nodesOf full idxs) (helperLayer full idxs ++ rest) =
      some (nodesOf (parentLayer H full) (parentIdxs idxs), rest) := by
  fun_induction helperLayer full idxs with
  | case1 => simp [nodesOf, climb, parentIdxs]
  | case2 i hi rest' ih =>
    have h1 : i + 1 < full.length := hb (i + 1) (by simp)
    have ih' := ih (List.pairwise_cons.1 (List.pairwise_cons.1 hs).2).2
      (fun x hx => hb x (by simp [hx]))
    rw [nodesOf, List.map_cons, List.map_cons, climb_pair hi]
    rw [← nodesOf, ih']
    simp only [Option.map_some, parentIdxs, hi, and_self, if_true, nodesOf, List.map_cons,
      parentLayer_getD_pair full i hi h1]
  | case3 i hi j rest' hj ih =>
    have hij : i < j := (List.pairwise_cons.1 hs).1 j (by simp)
    have hjl : j < full.length := hb j (by simp)
    have h1 : i + 1 < full.length := by omega
    have ih' := ih (List.pairwise_cons.1 hs).2 (fun x hx => hb x (by simp_all))
    rw [nodesOf, List.map_cons, List.map_cons, List.getElem?_eq_getElem h1]
    simp only [Option.toList_some, List.cons_append, List.nil_append]
    rw [climb_gap hi hj]
    have : (j, full[j]?.getD []) :: List.map (fun i => (i, full[i]?.getD [])) rest' =
      nodesOf full (j :: rest') := rfl
    rw [this, ih']
    rw [parentIdxs]
    simp only [hj, and_false, if_false, Option.map_some, nodesOf, List.map_cons]
    rw [parentLayer_getD_pair full i hi h1, List.getElem?_eq_getElem h1]
    rfl
  | case4 i hi hl =>
    have h0 : (parentLayer H full)[i / 2]? = full[i]? := by
      rw [parentLayer_last full (i / 2) (by omega), show 2 * (i / 2) = i by omega]
    simp [nodesOf, climb_promote hi hl, parentIdxs, h0]
  | case5 i hi hl =>
    have h0 : i < full.length := hb i (by simp)
    have h1 : i + 1 < full.length := by omega
    have hp := parentLayer_getD_pair (H := H) full i hi h1
    rw [List.getElem?_eq_getElem h1] at hp ⊢
    simp only [nodesOf, List.map_cons, List.map_nil, parentIdxs, hp]
    simp only [Option.toList_some, List.cons_append, List.nil_append]
    rw [climb_end hi hl]
    rfl
  | case6 i rest' hi ih =>
    have h0 : i < full.length := hb i (by simp)
    have ih' := ih (List.pairwise_cons.1 hs).2 (fun x hx => hb x (by simp_all))
    have hp := parentLayer_getD_pair (H := H) full (i - 1) (by omega) (by omega)
    rw [show i - 1 + 1 = i by omega, show (i - 1) / 2 = i / 2 by omega] at hp
    rw [nodesOf, List.map_cons]
    have hg : full[i - 1]? = some full[i - 1] := List.getElem?_eq_getElem (by omega)
    rw [hg] at hp ⊢
    simp only [Option.toList_some, List.cons_append, List.nil_append]
    rw [climb_odd hi, ← nodesOf, ih']
    have hpi : parentIdxs (i :: rest') = i / 2 :: parentIdxs rest' := by
      cases rest' with
      | nil => simp [parentIdxs]
      | cons j t => rw [parentIdxs]; simp [hi]
    rw [hpi]
    simp only [nodesOf, List.map_cons, hp, Option.map_some]
    rfl

theorem parentIdxs_spec (n lo : Nat) (idxs : List Nat) (hs : idxs.Pairwise (· < ·))
    (hb : ∀ i ∈ idxs, lo ≤ i ∧ i < n) :
    (parentIdxs idxs).Pairwise (· < ·) ∧ (∀ i ∈ parentIdxs idxs, lo / 2 ≤ i ∧ i < halfUp n) := by
  have bnd : ∀ i, lo ≤ i ∧ i < n → lo / 2 ≤ i / 2 ∧ i / 2 < halfUp n := by
    intro i hi; unfold halfUp; omega
  fun_induction parentIdxs idxs generalizing lo with
  | case1 => simp
  | case2 i j rest' hij ih =>
    obtain ⟨hi, rfl⟩ := hij
    have hs2 := List.pairwise_cons.1 (List.pairwise_cons.1 hs).2
    obtain ⟨h1, h2⟩ := ih (i + 2) hs2.2
      (fun x hx => ⟨by have := hs2.1 x hx; omega, (hb x (by simp [hx])).2⟩)
      (by intro x hx; unfold halfUp; omega)
    refine ⟨List.pairwise_cons.2 ⟨fun x hx => ?_, h1⟩, fun x hx => ?_⟩
    · have := (h2 x hx).1; omega
    · rcases List.mem_cons.1 hx with rfl | hx
      · exact bnd _ (hb _ (by simp))
      · have := h2 x hx
        have h3 := (hb i (by simp)).1
        exact ⟨by omega, this.2⟩
  | case3 i j rest' hij ih =>
    have hs2 := List.pairwise_cons.1 hs
    have hs3 := List.pairwise_cons.1 hs2.2
    have hlt : i < j := hs2.1 j (by simp)
    have hlo : 2 * (i / 2 + 1) ≤ j := by
      rcases Nat.mod_two_eq_zero_or_one i with h | h
      · have : j ≠ i + 1 := fun e => hij ⟨h, e⟩
        omega
      · omega
    obtain ⟨h1, h2⟩ := ih (2 * (i / 2 + 1)) hs2.2
      (fun x hx => ⟨by
        rcases List.mem_cons.1 hx with rfl | hx
        · exact hlo
        · have := hs3.1 x hx; omega, (hb x (by simp_all)).2⟩)
      (by intro x hx; unfold halfUp; omega)
    refine ⟨List.pairwise_cons.2 ⟨fun x hx => ?_, h1⟩, fun x hx => ?_⟩
    · have := (h2 x hx).1; omega
    · rcases List.mem_cons.1 hx with rfl | hx
      · exact bnd _ (hb _ (by simp))
      · have := h2 x hx
        have h3 := (hb i (by simp)).1
        exact ⟨by omega, this.2⟩
  | case4 i =>
    refine ⟨List.pairwise_singleton .., fun x hx => ?_⟩
    simp at hx; subst hx
    exact bnd _ (hb _ (by simp))

theorem parentIdxs_ne_nil (idxs : List Nat) (h : idxs ≠ []) : parentIdxs idxs ≠ [] := by
  fun_cases parentIdxs idxs <;> simp_all

theorem climbAll_complete (k : Nat) (full : List Digest) (idxs : List Nat)
    (hs : idxs.Pairwise (· < ·)) (hb : ∀ i ∈ idxs, i < full.length) (rest : List Digest) :
    climbAll H k full.length (nodesOf full idxs) (helperNodes H k full idxs ++ rest) =
      some (nodesOf (layerUp H k full) (parentIdxs^[k] idxs), rest) := by
  induction k generalizing full idxs with
  | zero => rfl
  | succ k ih =>
    rw [climbAll, helperNodes, List.append_assoc, climb_complete full idxs hs hb]
    have h := parentIdxs_spec full.length 0 idxs hs (fun i hi => ⟨Nat.zero_le _, hb i hi⟩)
    have := ih (parentLayer H full) (parentIdxs idxs) h.1
      (fun i hi => by rw [parentLayer_length]; exact (h.2 i hi).2)
    rw [parentLayer_length] at this
    simp only [Option.bind_eq_bind, Option.bind_some, this, layerUp, Function.iterate_succ_apply]

theorem parentIdxs_iterate_spec (k n : Nat) (idxs : List Nat) (hs : idxs.Pairwise (· < ·))
    (hb : ∀ i ∈ idxs, i < n) (hne : idxs ≠ []) :
    (parentIdxs^[k] idxs).Pairwise (· < ·) ∧ (∀ i ∈ parentIdxs^[k] idxs, i < halfUp^[k] n) ∧
      parentIdxs^[k] idxs ≠ [] := by
  induction k generalizing n idxs with
  | zero => exact ⟨hs, hb, hne⟩
  | succ k ih =>
    have h := parentIdxs_spec n 0 idxs hs (fun i hi => ⟨Nat.zero_le _, hb i hi⟩)
    exact ih (halfUp n) (parentIdxs idxs) h.1 (fun i hi => (h.2 i hi).2) (parentIdxs_ne_nil idxs hne)

/-- At the top only index 0 is left. -/
theorem parentIdxs_top (k n : Nat) (idxs : List Nat) (hs : idxs.Pairwise (· < ·))
    (hb : ∀ i ∈ idxs, i < n) (hne : idxs ≠ []) (hk : halfUp^[k] n ≤ 1) :
    parentIdxs^[k] idxs = [0] := by
  obtain ⟨h1, h2, h3⟩ := parentIdxs_iterate_spec k n idxs hs hb hne
  match hp : parentIdxs^[k] idxs with
  | [] => exact absurd hp h3
  | [a] =>
    have := h2 a (by simp [hp]); congr 1; omega
  | a :: b :: t =>
    rw [hp] at h1
    have hab := (List.pairwise_cons.1 h1).1 b (by simp)
    have := h2 b (by simp [hp]); omega

theorem layerUp_length (k : Nat) (l : List Digest) : (layerUp H k l).length = halfUp^[k] l.length := by
  induction k generalizing l with
  | zero => rfl
  | succ k ih => rw [layerUp, ih, parentLayer_length, Function.iterate_succ_apply]

theorem halfUp_iterate_pos (k n : Nat) (h : 0 < n) : 0 < halfUp^[k] n := by
  induction k generalizing n with
  | zero => exact h
  | succ k ih => rw [Function.iterate_succ_apply]; apply ih; unfold halfUp; omega

theorem merkleRoot_isSome (leaves : List Digest) (h : leaves ≠ []) :
    ∃ r, merkleRoot H leaves = some r ∧ layerUp H (treeDepth leaves.length) leaves = [r] := by
  have h1 := layerUp_length (H := H) (treeDepth leaves.length) leaves
  have h2 := halfUp_treeDepth_le leaves.length
  have h3 := halfUp_iterate_pos (treeDepth leaves.length) leaves.length (List.length_pos_iff.2 h)
  obtain ⟨r, hr⟩ := List.length_eq_one_iff.1 (show (layerUp H (treeDepth leaves.length) leaves).length = 1 by omega)
  exact ⟨r, by simp [merkleRoot, hr], hr⟩

/-! ## Sorting -/

theorem insertLeaf_perm (x : Nat × Digest) (l : List (Nat × Digest)) :
    (insertLeaf x l).Perm (x :: l) := by
  induction l with
  | nil => rfl
  | cons y t ih =>
    rw [insertLeaf]
    split
    · rfl
    · exact (ih.cons y).trans (List.Perm.swap ..)

theorem insertLeaf_sorted (x : Nat × Digest) (l : List (Nat × Digest))
    (h : l.Pairwise (fun a b => a.1 ≤ b.1)) : (insertLeaf x l).Pairwise (fun a b => a.1 ≤ b.1) := by
  induction l with
  | nil => simp [insertLeaf]
  | cons y t ih =>
    rw [insertLeaf]
    have h' := List.pairwise_cons.1 h
    split
    · rename_i hxy
      refine List.pairwise_cons.2 ⟨fun z hz => ?_, h⟩
      rcases List.mem_cons.1 hz with rfl | hz
      · omega
      · have := h'.1 z hz; omega
    · rename_i hxy
      refine List.pairwise_cons.2 ⟨fun z hz => ?_, ih h'.2⟩
      rcases List.mem_cons.1 ((insertLeaf_perm x t).mem_iff.1 hz) with rfl | hz
      · omega
      · exact h'.1 z hz

theorem sortLeaves_aux (l acc : List (Nat × Digest)) (h : acc.Pairwise (fun a b => a.1 ≤ b.1)) :
    (l.foldl (fun acc x => insertLeaf x acc) acc).Perm (l ++ acc) ∧
    (l.foldl (fun acc x => insertLeaf x acc) acc).Pairwise (fun a b => a.1 ≤ b.1) := by
  induction l generalizing acc with
  | nil => exact ⟨List.Perm.refl _, h⟩
  | cons x t ih =>
    obtain ⟨h1, h2⟩ := ih (insertLeaf x acc) (insertLeaf_sorted x acc h)
    refine ⟨h1.trans ?_, h2⟩
    exact ((insertLeaf_perm x acc).append_left t).trans List.perm_middle

theorem sortLeaves_perm (l : List (Nat × Digest)) : (sortLeaves l).Perm l := by
  have := (sortLeaves_aux l [] List.Pairwise.nil).1
  rwa [List.append_nil] at this

theorem sortLeaves_sorted (l : List (Nat × Digest)) :
    (sortLeaves l).Pairwise (fun a b => a.1 ≤ b.1) :=
  (sortLeaves_aux l [] List.Pairwise.nil).2

theorem insertLeaf_last (x : Nat × Digest) (l : List (Nat × Digest)) (h : ∀ y ∈ l, y.1 ≤ x.1) :
    insertLeaf x l = l ++ [x] := by
  induction l with
  | nil => rfl
  | cons y t ih =>
    rw [insertLeaf, if_neg (by have := h y (by simp); omega), ih (fun z hz => h z (by simp [hz]))]
    rfl

theorem sortLeaves_of_sorted (l : List (Nat × Digest)) (h : l.Pairwise (fun a b => a.1 ≤ b.1)) :
    sortLeaves l = l := by
  have : ∀ (l acc : List (Nat × Digest)), (acc ++ l).Pairwise (fun a b => a.1 ≤ b.1) →
      l.foldl (fun acc x => insertLeaf x acc) acc = acc ++ l := by
    intro l
    induction l with
    | nil => simp
    | cons x t ih =>
      intro acc h
      rw [List.foldl_cons, insertLeaf_last, ih]
      · simp
      · simpa using h
      · intro y hy
        exact (List.pairwise_append.1 h).2.2 y hy x (by simp)
  exact this l [] h

theorem sorted_strict {l : List (Nat × Digest)} (h : l.Pairwise (fun a b => a.1 ≤ b.1))
    (hn : (l.map (·.1)).Nodup) : l.Pairwise (fun a b => a.1 < b.1) := by
  have := List.pairwise_map.1 hn
  exact (h.and this).imp fun h => by omega

/-! ## Grafting a forged subtree under a leaf -/

/-- Moves nodes to the right. -/
def shiftNodes (o : Nat) (l : List (Nat × Digest)) : List (Nat × Digest) :=
  l.map fun x => (o + x.1, x.2)

theorem climb_shift {n n' o : Nat} (ho : o % 2 = 0) (hn : n % 2 = 0) (hn' : n' % 2 = 0)
    (nodes : List (Nat × Digest)) (ps : List Digest) :
    climb H n' (shiftNodes o nodes) ps =
      (climb H n nodes ps).map fun r => (shiftNodes (o / 2) r.1, r.2) := by
  have par : ∀ {i}, i % 2 = 0 → (o + i) % 2 = 0 := by intro i h; omega
  have npar : ∀ {i}, ¬ i % 2 = 0 → ¬ (o + i) % 2 = 0 := by intro i h; omega
  have half : ∀ i, (o + i) / 2 = o / 2 + i / 2 := by intro i; omega
  fun_induction climb H n nodes ps with
  | case1 ps => simp [shiftNodes, climb]
  | case2 i h1 ps hi h' rest' ih =>
    rw [shiftNodes, List.map_cons, List.map_cons]
    simp only
    rw [← Nat.add_assoc, climb_pair (par hi), ← shiftNodes, ih]
    simp [Option.map_map, Function.comp_def, shiftNodes, half]
  | case3 i h1 hi j h' rest' hj =>
    rw [shiftNodes, List.map_cons, List.map_cons]
    simp only
    rw [climb_gap_nil (par hi) (by omega)]; rfl
  | case4 i h1 hi j h' rest' hj p ps' ih =>
    rw [shiftNodes, List.map_cons, List.map_cons]
    simp only
    rw [climb_gap (par hi) (by omega)]
    have : (o + j, h') :: List.map (fun x => (o + x.1, x.2)) rest' =
      shiftNodes o ((j, h') :: rest') := rfl
    rw [this, ih]
    simp [Option.map_map, Function.comp_def, shiftNodes, half]
  | case5 i h1 ps hi hn'' => omega
  | case6 i h1 hi hn'' =>
    rw [shiftNodes, List.map_cons, List.map_nil]
    simp only
    rw [climb_end_nil (par hi) (by omega)]; rfl
  | case7 i h1 hi hn'' p ps' =>
    rw [shiftNodes, List.map_cons, List.map_nil]
    simp only
    rw [climb_end (par hi) (by omega)]
    simp [shiftNodes, half]
  | case8 i h1 rest hi =>
    rw [shiftNodes, List.map_cons]
    simp only
    rw [climb_odd_nil (npar hi)]; rfl
  | case9 i h1 rest hi p ps' ih =>
    rw [shiftNodes, List.map_cons]
    simp only
    rw [climb_odd (npar hi), ← shiftNodes, ih]
    simp [Option.map_map, Function.comp_def, shiftNodes, half]

theorem climbAll_shift (d a b : Nat) (nodes : List (Nat × Digest)) (ps : List Digest) :
    climbAll H d (2 ^ d * a) (shiftNodes (2 ^ d * b) nodes) ps =
      (climbAll H d (2 ^ d) nodes ps).map fun r => (shiftNodes b r.1, r.2) := by
  induction d generalizing nodes ps with
  | zero => simp [climbAll]
  | succ d ih =>
    have e1 : halfUp (2 ^ (d + 1) * a) = 2 ^ d * a := by
      unfold halfUp; rw [Nat.pow_succ, Nat.mul_right_comm]; omega
    have e2 : halfUp (2 ^ (d + 1)) = 2 ^ d := by unfold halfUp; rw [Nat.pow_succ]; omega
    have e3 : 2 ^ (d + 1) * b / 2 = 2 ^ d * b := by rw [Nat.pow_succ, Nat.mul_right_comm]; omega
    rw [climbAll, climbAll, climb_shift (n := 2 ^ (d + 1))
      (by rw [Nat.pow_succ, Nat.mul_right_comm]; omega) (by rw [Nat.pow_succ]; omega)
      (by rw [Nat.pow_succ, Nat.mul_right_comm]; omega), e1, e2, e3]
    cases climb H (2 ^ (d + 1)) nodes ps with
    | none => rfl
    | some r => exact ih r.1 r.2

theorem climbAll_add (a b n : Nat) (nodes : List (Nat × Digest)) (ps : List Digest) :
    climbAll H (a + b) n nodes ps =
      (climbAll H a n nodes ps).bind fun r => climbAll H b (halfUp^[a] n) r.1 r.2 := by
  induction a generalizing n nodes ps with
  | zero => simp [climbAll]
  | succ a ih =>
    rw [Nat.succ_add_eq_add_succ, ← Nat.succ_eq_add_one, Nat.add_succ, climbAll, climbAll]
    cases climb H n nodes ps with
    | none => rfl
    | some r => exact ih _ _ _

theorem halfUp_iterate_pow (d a : Nat) : halfUp^[d] (2 ^ d * a) = a := by
  induction d with
  | zero => simp
  | succ d ih =>
    rw [Function.iterate_succ_apply, show halfUp (2 ^ (d + 1) * a) = 2 ^ d * a by
      unfold halfUp; rw [Nat.pow_succ, Nat.mul_right_comm]; omega]
    exact ih

theorem treeDepth_mul (d n : Nat) (hn : 2 ≤ n) : treeDepth (2 ^ d * n) = d + treeDepth n := by
  induction d with
  | zero => simp
  | succ d ih =>
    have h2 : 2 ≤ 2 ^ d * n := Nat.le_trans hn (Nat.le_mul_of_pos_left n (Nat.two_pow_pos d))
    have h3 : treeDepth (2 * (2 ^ d * n)) = treeDepth (2 ^ d * n) + 1 := by
      unfold treeDepth
      rw [if_neg (by omega), if_neg (by omega), Nat.clog_of_two_le (by decide) (by omega)]
      congr 2
      omega
    rw [Nat.pow_succ, Nat.mul_comm (2 ^ d) 2, Nat.mul_assoc, h3, ih]
    omega

/-- Whatever tree of forged leaves has root `r`: if some honest leaf is the hash of `p ++ r`, a proof
for any of the forged leaves verifies against the honest root. -/
theorem graft (checked : Bool) (L F : List Digest) (d j : Nat) (p r : Digest) (idxs : List Nat)
    (hL : 2 ≤ L.length) (hj : L[j]? = some (H (p ++ r))) (hF : F.length = 2 ^ d)
    (hr : layerUp H d F = [r]) (hs : idxs.Pairwise (· < ·)) (hb : ∀ i ∈ idxs, i < F.length)
    (hne : idxs ≠ []) :
    rsRoot checked H (2 ^ (d + 1) * L.length)
      (shiftNodes (2 ^ d * (2 * j + 1)) (nodesOf F idxs))
      (helperNodes H d F idxs ++ p :: helperNodes H (treeDepth L.length) L [j]) =
    merkleRoot H L := by
  have hjl : j < L.length := (List.getElem?_eq_some_iff.1 hj).1
  have hsz : 2 ^ (d + 1) * L.length = 2 ^ d * (2 * L.length) := by rw [Nat.pow_succ, Nat.mul_assoc]
  have hdepth : treeDepth (2 ^ (d + 1) * L.length) = d + (1 + treeDepth L.length) := by
    rw [treeDepth_mul _ _ hL]; omega
  obtain ⟨root, hroot, htop⟩ := merkleRoot_isSome (H := H) L (by rintro rfl; simp at hL)
  have hin : ((checked && (shiftNodes (2 ^ d * (2 * j + 1)) (nodesOf F idxs)).any
      fun l => decide (2 ^ (d + 1) * L.length ≤ l.1)) = true) = False := by
    simp only [Bool.and_eq_true, List.any_eq_true, decide_eq_true_eq, eq_iff_iff, iff_false,
      not_and, not_exists, Nat.not_le]
    intro _ x hx
    simp only [shiftNodes, nodesOf, List.map_map, List.mem_map] at hx
    obtain ⟨i, hi, rfl⟩ := hx
    have h1 := hb i hi
    simp only [Function.comp_apply]
    rw [hsz]
    have : 2 ^ d * (2 * j + 1) + 2 ^ d = 2 ^ d * (2 * (j + 1)) := by
      rw [show 2 * (j + 1) = (2 * j + 1) + 1 by omega, Nat.mul_succ (2 ^ d) (2 * j + 1)]
    have h2 : 2 ^ d * (2 * (j + 1)) ≤ 2 ^ d * (2 * L.length) := Nat.mul_le_mul_left _ (by omega)
    omega
  unfold rsRoot
  rw [if_neg (by rw [hin]; exact not_false), hdepth, climbAll_add, hsz, climbAll_shift]
  have hc := climbAll_complete (H := H) d F idxs hs hb (p :: helperNodes H (treeDepth L.length) L [j])
  rw [hF] at hc
  rw [hc, parentIdxs_top d F.length idxs hs hb hne (by
    rw [hF]; exact halfUp_iterate_le d _ (Nat.le_refl _)), hr, halfUp_iterate_pow]
  simp only [Option.map_some, Option.bind_some, climbAll_add]
  have h1 : climbAll H 1 (2 * L.length) (shiftNodes (2 * j + 1) (nodesOf [r] [0]))
      (p :: helperNodes H (treeDepth L.length) L [j]) =
      some ([(j, H (p ++ r))], helperNodes H (treeDepth L.length) L [j]) := by
    simp only [climbAll, nodesOf, shiftNodes, List.map_cons, List.map_nil, Nat.add_zero]
    rw [climb_odd (by omega)]
    simp [climb]; omega
  rw [h1]
  have e4 : halfUp^[1] (2 * L.length) = L.length := by simp [halfUp]; omega
  have hc2 := climbAll_complete (H := H) (treeDepth L.length) L [j] (by simp) (by simpa using hjl) []
  rw [parentIdxs_top (treeDepth L.length) L.length [j] (by simp) (by simpa using hjl) (by simp)
    (halfUp_treeDepth_le _), htop, List.append_nil] at hc2
  have e5 : nodesOf L [j] = [(j, H (p ++ r))] := by simp [nodesOf, hj]
  rw [e5] at hc2
  simp only [Option.bind_some, e4, hc2, hroot]
  rfl

/-! ## Every accepted leaf is a node of the honest tree -/

/-- Hashes that can be built from the leaves by pairwise hashing: a superset of the tree's nodes. -/
inductive InTree (H : Bytes → Digest) (leaves : List Digest) : Digest → Prop
  | leaf {h} : h ∈ leaves → InTree H leaves h
  | node {a b} : InTree H leaves a → InTree H leaves b → InTree H leaves (H (a ++ b))

theorem InTree.len {N : Nat} (hN : ∀ x, (H x).length = N) {L : List Digest} (hl : AllLen N L)
    {h : Digest} (hh : InTree H L h) : h.length = N := by
  cases hh with
  | leaf h => exact hl _ h
  | node => exact hN _

theorem inTree_parentLayer {L l : List Digest} (hl : ∀ h ∈ l, InTree H L h) :
    ∀ h ∈ parentLayer H l, InTree H L h := by
  fun_induction parentLayer H l with
  | case1 a b t ih =>
    intro h hh
    rcases List.mem_cons.1 hh with rfl | hh
    · exact .node (hl a (by simp)) (hl b (by simp))
    · exact ih (fun x hx => hl x (by simp [hx])) h hh
  | case2 l h => exact hl

theorem inTree_layerUp (k : Nat) {L l : List Digest} (hl : ∀ h ∈ l, InTree H L h) :
    ∀ h ∈ layerUp H k l, InTree H L h := by
  induction k generalizing l with
  | zero => exact hl
  | succ k ih => exact ih (inTree_parentLayer hl)

theorem merkleRoot_inTree {L : List Digest} {r : Digest} (h : merkleRoot H L = some r) :
    InTree H L r :=
  inTree_layerUp _ (fun _ hh => .leaf hh) r (List.mem_of_mem_head? h)

/-- A node below a pairwise hash in the tree is in the tree, when no leaf is such a hash. -/
theorem inTree_children {N : Nat} (hN : ∀ x, (H x).length = N) {L : List Digest} (hl : AllLen N L)
    (hleaf : ∀ x y, x.length = N → y.length = N → H (x ++ y) ∈ L → HashCollision H)
    {x y : Digest} (hx : x.length = N) (hy : y.length = N) (h : InTree H L (H (x ++ y))) :
    (InTree H L x ∧ InTree H L y) ∨ HashCollision H := by
  generalize hz : H (x ++ y) = z at h
  cases h with
  | leaf h => exact .inr (hleaf x y hx hy (hz ▸ h))
  | @node a b ha hb =>
    by_cases e : x ++ y = a ++ b
    · obtain ⟨rfl, rfl⟩ := List.append_inj e (by rw [hx, ha.len hN hl])
      exact .inl ⟨ha, hb⟩
    · exact .inr ⟨_, _, e, hz⟩

theorem climb_inTree {N n : Nat} (hN : ∀ x, (H x).length = N) {L : List Digest} (hl : AllLen N L)
    (hleaf : ∀ x y, x.length = N → y.length = N → H (x ++ y) ∈ L → HashCollision H)
    {nodes : List (Nat × Digest)} {ps : List Digest} {r : List (Nat × Digest) × List Digest}
    (h : climb H n nodes ps = some r) (hn : ∀ x ∈ nodes, x.2.length = N) (hp : AllLen N ps) :
    (∀ x ∈ r.1, x.2.length = N) ∧ AllLen N r.2 ∧
      ((∀ x ∈ r.1, InTree H L x.2) → (∀ x ∈ nodes, InTree H L x.2) ∨ HashCollision H) := by
  have mem1 : ∀ {a : Nat × Digest} {l}, a ∈ a :: l := List.mem_cons_self
  have step : ∀ {i k : Nat} {a b : Digest} {l : List (Nat × Digest)}
      {r' : List (Nat × Digest) × List Digest}
      {nodes' : List (Nat × Digest)}, a.length = N → b.length = N →
      ((∀ x ∈ r'.1, x.2.length = N) ∧ AllLen N r'.2 ∧
        ((∀ x ∈ r'.1, InTree H L x.2) → (∀ x ∈ l, InTree H L x.2) ∨ HashCollision H)) →
      (InTree H L a → InTree H L b → (∀ x ∈ l, InTree H L x.2) → ∀ x ∈ nodes', InTree H L x.2) →
      (∀ x ∈ (k, H (a ++ b)) :: r'.1, x.2.length = N) ∧ AllLen N r'.2 ∧
        ((∀ x ∈ (k, H (a ++ b)) :: r'.1, InTree H L x.2) →
          (∀ x ∈ nodes', InTree H L x.2) ∨ HashCollision H) := by
    intro i k a b l r' nodes' ha hb ih hnodes
    refine ⟨?_, ih.2.1, ?_⟩
    · intro x hx
      rcases List.mem_cons.1 hx with rfl | hx
      · exact hN _
      · exact ih.1 x hx
    · intro hall
      rcases inTree_children hN hl hleaf ha hb (hall _ mem1) with ⟨h1, h2⟩ | hc
      · rcases ih.2.2 (fun x hx => hall x (by simp [hx])) with h3 | hc
        · exact .inl (hnodes h1 h2 h3)
        · exact .inr hc
      · exact .inr hc
  fun_induction climb H n nodes ps generalizing r with
  | case1 ps => cases h; exact ⟨by simp, hp, fun _ => .inl (by simp)⟩
  | case2 i h1 ps hi h' rest' ih =>
    obtain ⟨r', h2, rfl⟩ := Option.map_eq_some_iff.1 h
    refine step (i := i) (hn _ mem1) (hn (i + 1, h') (by simp))
      (ih h2 (fun x hx => hn x (by simp [hx])) hp) ?_
    intro ha hb hl x hx
    simp only [List.mem_cons] at hx
    rcases hx with rfl | rfl | hx
    exacts [ha, hb, hl x hx]
  | case3 => simp at h
  | case4 i h1 hi j h' rest' hj p ps' ih =>
    obtain ⟨r', h2, rfl⟩ := Option.map_eq_some_iff.1 h
    refine step (i := i) (hn _ mem1) (hp p (by simp))
      (ih h2 (fun x hx => hn x (List.mem_cons_of_mem _ hx)) (fun x hx => hp x (by simp [hx]))) ?_
    intro ha hb hl x hx
    rcases List.mem_cons.1 hx with rfl | hx
    exacts [ha, hl x hx]
  | case5 i h1 ps hi hn'' =>
    cases h
    refine ⟨?_, hp, ?_⟩
    · intro x hx
      rw [List.mem_singleton] at hx; subst hx
      exact hn (i, h1) mem1
    · intro hall
      left
      intro x hx
      rw [List.mem_singleton] at hx; subst hx
      exact hall (i / 2, h1) mem1
  | case6 => simp at h
  | case7 i h1 hi hn'' p ps' =>
    cases h
    refine step (i := i) (l := []) (r' := ([], ps')) (hn _ mem1) (hp p (by simp))
      ⟨by simp, fun x hx => hp x (by simp [hx]), fun _ => .inl (by simp)⟩ ?_
    intro ha hb hl x hx
    rw [List.mem_singleton] at hx; subst hx
    exact ha
  | case8 => simp at h
  | case9 i h1 rest hi p ps' ih =>
    obtain ⟨r', h2, rfl⟩ := Option.map_eq_some_iff.1 h
    refine step (i := i) (hp p (by simp)) (hn _ mem1)
      (ih h2 (fun x hx => hn x (List.mem_cons_of_mem _ hx)) (fun x hx => hp x (by simp [hx]))) ?_
    intro ha hb hl x hx
    rcases List.mem_cons.1 hx with rfl | hx
    exacts [hb, hl x hx]

theorem climbAll_inTree {N k n : Nat} (hN : ∀ x, (H x).length = N) {L : List Digest} (hl : AllLen N L)
    (hleaf : ∀ x y, x.length = N → y.length = N → H (x ++ y) ∈ L → HashCollision H)
    {nodes : List (Nat × Digest)} {ps : List Digest} {top : List (Nat × Digest) × List Digest}
    (h : climbAll H k n nodes ps = some top) (hn : ∀ x ∈ nodes, x.2.length = N) (hp : AllLen N ps)
    (ht : ∀ x ∈ top.1, InTree H L x.2) : (∀ x ∈ nodes, InTree H L x.2) ∨ HashCollision H := by
  induction k generalizing n nodes ps with
  | zero => cases h; exact .inl ht
  | succ k ih =>
    obtain ⟨r, h1, h2⟩ := Option.bind_eq_some_iff.1 h
    obtain ⟨a, b, c⟩ := climb_inTree hN hl hleaf h1 hn hp
    rcases ih h2 a b with h3 | h3
    · exact c h3
    · exact .inr h3

/-! ## A leaf outside the tree -/

/-- A layer with its indices. -/
def enumNodes : Nat → List Digest → List (Nat × Digest)
  | _, [] => []
  | o, a :: t => (o, a) :: enumNodes (o + 1) t

theorem enumNodes_eq (l : List Digest) :
    enumNodes 0 l = (List.range l.length).map fun i => (i, l[i]?.getD []) := by
  have : ∀ (l : List Digest) (o : Nat),
      enumNodes o l = (List.range l.length).map fun i => (o + i, l[i]?.getD []) := by
    intro l
    induction l with
    | nil => intro o; rfl
    | cons a t ih =>
      intro o
      rw [enumNodes, ih, List.length_cons, List.range_succ_eq_map]
      simp [Function.comp_def, Nat.add_assoc, Nat.add_comm 1]
  simpa using this l 0

theorem climb_enum {n : Nat} (l : List Digest) (o : Nat) (ho : o % 2 = 0) (hl : l.length % 2 = 0)
    (tail : List (Nat × Digest)) (ps : List Digest) :
    climb H n (enumNodes o l ++ tail) ps =
      (climb H n tail ps).map fun r => (enumNodes (o / 2) (parentLayer H l) ++ r.1, r.2) := by
  fun_induction parentLayer H l generalizing o with
  | case1 a b t ih =>
    rw [enumNodes, enumNodes, List.cons_append, List.cons_append, climb_pair ho,
      ih (o + 1 + 1) (by omega) (by simp at hl; omega)]
    rw [enumNodes, show (o + 1 + 1) / 2 = o / 2 + 1 by omega]
    simp [Option.map_map, Function.comp_def]
  | case2 l h =>
    match l, h, hl with
    | [], _, _ => simp [enumNodes]
    | a :: b :: t, h, _ => exact absurd rfl (h a b t)

theorem climbAll_full_extra (D : Nat) (l : List Digest) (x : Digest) (ps : List Digest)
    (hl : l.length = 2 ^ D) (hps : D ≤ ps.length) :
    ∃ y rest, climbAll H D l.length (enumNodes 0 l ++ [(l.length, x)]) ps =
      some (enumNodes 0 (layerUp H D l) ++ [(1, y)], rest) := by
  induction D generalizing l x ps with
  | zero => rw [hl]; exact ⟨x, ps, rfl⟩
  | succ D ih =>
    match ps, hps with
    | p :: ps', hps =>
      have h1 : l.length % 2 = 0 := by rw [hl, Nat.pow_succ]; omega
      have h2 : halfUp l.length = (parentLayer H l).length := (parentLayer_length l).symm
      have h3 : l.length / 2 = (parentLayer H l).length := by rw [← h2]; unfold halfUp; omega
      obtain ⟨y, rest, hr⟩ := ih (parentLayer H l) (H (x ++ p)) ps'
        (by rw [← h3, hl, Nat.pow_succ]; omega) (by simpa using hps)
      refine ⟨y, rest, ?_⟩
      rw [climbAll, climb_enum l 0 rfl h1, climb_end h1 (by omega), h2]
      simp only [Option.map_some, Option.bind_eq_bind, Option.bind_some, h3]
      exact hr

end Tlsn
