import Verif.Sdk.Spec

/-! # Paths into JSON documents -/

namespace Tlsn.Sdk

theorem splitDots_ne_nil (p : Text) : splitDots p ≠ [] := by
  cases p with
  | nil => simp [splitDots]
  | cons c cs =>
    unfold splitDots
    split
    · simp
    · split <;> simp

theorem splitDots_parts (p : Text) : PathParts p (splitDots p) := by
  induction p with
  | nil => refine ⟨by simp [splitDots], by simp [splitDots], rfl⟩
  | cons c cs ih =>
    obtain ⟨h0, h1, h2⟩ := ih
    by_cases hc : c = '.'
    · have e : splitDots (c :: cs) = [] :: splitDots cs := by simp [splitDots, hc]
      rw [e]
      refine ⟨by simp, ?_, ?_⟩
      · intro p hp
        rcases List.mem_cons.1 hp with rfl | hp
        · simp
        · exact h1 p hp
      · obtain ⟨s, r, hs⟩ := List.exists_cons_of_ne_nil h0
        rw [hs] at h2 ⊢
        rw [List.intersperse_cons_cons, List.flatten_cons, List.flatten_cons, ← h2, hc]
        rfl
    · obtain ⟨s, r, hs⟩ := List.exists_cons_of_ne_nil h0
      have e : splitDots (c :: cs) = (c :: s) :: r := by simp [splitDots, hc, hs]
      rw [hs] at h1 h2
      rw [e]
      refine ⟨by simp, ?_, ?_⟩
      · intro p hp
        rcases List.mem_cons.1 hp with rfl | hp
        · intro h
          rcases List.mem_cons.1 h with h | h
          · exact hc h.symm
          · exact h1 s (by simp) h
        · exact h1 p (List.mem_cons_of_mem _ hp)
      · cases r with
        | nil => simpa using h2
        | cons t u =>
          rw [List.intersperse_cons_cons, List.flatten_cons] at h2 ⊢
          rw [h2]; rfl

/-- Without a dot the whole text is one part. -/
theorem splitDots_nodot {p : Text} (h : '.' ∉ p) : splitDots p = [p] := by
  induction p with
  | nil => rfl
  | cons c cs ih =>
    have hc : ¬ c = '.' := fun e => h (by simp [e])
    rw [splitDots, if_neg hc, ih (fun x => h (List.mem_cons_of_mem _ x))]

theorem splitDots_append {p q : Text} (h : '.' ∉ q) : splitDots (p ++ '.' :: q) = splitDots p ++ [q] := by
  induction p with
  | nil => simp [splitDots, splitDots_nodot h]
  | cons c cs ih =>
    by_cases hc : c = '.'
    · simp [splitDots, hc, ih]
    · obtain ⟨s, r, hs⟩ := List.exists_cons_of_ne_nil (splitDots_ne_nil cs)
      simp [splitDots, hc, ih, hs]

theorem splitDots_dot (p q : Text) (h : '.' ∉ p) : splitDots (p ++ '.' :: q) = p :: splitDots q := by
  induction p with
  | nil => simp [splitDots]
  | cons c cs ih =>
    have hc : ¬ c = '.' := fun e => h (by simp [e])
    rw [List.cons_append, splitDots, if_neg hc, ih (fun x => h (List.mem_cons_of_mem _ x))]

/-- The parts of a path are unique. -/
theorem pathParts_unique {p : Text} {parts : List Text} (h : PathParts p parts) : parts = splitDots p := by
  obtain ⟨h0, h1, h2⟩ := h
  induction parts generalizing p with
  | nil => exact absurd rfl h0
  | cons s r ih =>
    cases r with
    | nil =>
      have : p = s := by simpa using h2
      subst this
      exact (splitDots_nodot (h1 p (by simp))).symm
    | cons t u =>
      rw [List.intersperse_cons_cons, List.flatten_cons, List.flatten_cons] at h2
      have h3 := ih (p := ((t :: u).intersperse ['.']).flatten) (by simp)
        (fun x hx => h1 x (List.mem_cons_of_mem _ hx)) rfl
      rw [h2]
      rw [show s ++ (['.'] ++ ((t :: u).intersperse ['.']).flatten)
          = s ++ '.' :: ((t :: u).intersperse ['.']).flatten from rfl,
        splitDots_dot _ _ (h1 s (by simp)), ← h3]

theorem plain_iff {p : Text} : PlainPath p ↔ ∀ x ∈ splitDots p, x ≠ [] :=
  ⟨fun h => h _ (splitDots_parts p), fun h parts hp => by rw [pathParts_unique hp]; exact h⟩

theorem rfindDot_none {p : Text} : rfindDot p = none ↔ '.' ∉ p := by
  induction p with
  | nil => simp [rfindDot]
  | cons c cs ih =>
    unfold rfindDot
    cases hr : rfindDot cs with
    | some x =>
      have : '.' ∈ cs := by
        refine Decidable.not_not.1 fun hn => ?_
        rw [ih.2 hn] at hr; cases hr
      simp [this]
    | none =>
      by_cases hc : c = '.'
      · simp [hc]
      · simp only [hc, if_false, true_iff, List.mem_cons, not_or]
        exact ⟨fun e => hc e.symm, ih.1 hr⟩

theorem rfindDot_some {p a b : Text} (h : rfindDot p = some (a, b)) : p = a ++ '.' :: b ∧ '.' ∉ b := by
  induction p generalizing a b with
  | nil => simp [rfindDot] at h
  | cons c cs ih =>
    unfold rfindDot at h
    cases hr : rfindDot cs with
    | some x =>
      obtain ⟨x1, x2⟩ := x
      rw [hr] at h
      simp only [Option.some.injEq, Prod.mk.injEq] at h
      obtain ⟨rfl, rfl⟩ := h
      obtain ⟨h1, h2⟩ := ih hr
      exact ⟨by rw [h1]; rfl, h2⟩
    | none =>
      rw [hr] at h
      simp only at h
      split at h
      · rename_i hc
        simp only [Option.some.injEq, Prod.mk.injEq] at h
        obtain ⟨rfl, rfl⟩ := h
        exact ⟨by rw [hc]; rfl, rfindDot_none.1 hr⟩
      · cases h

theorem find_first {elems : Pairs} {key : Text} {kv : KeyValue} :
    elems.toList.find? (fun kv => kv.key = key) = some kv ↔ FirstWithKey elems key kv := by
  rw [List.find?_eq_some_iff_append]
  simp only [decide_eq_true_eq, Bool.not_eq_eq_eq_not, Bool.not_true, decide_eq_false_iff_not, FirstWithKey]

theorem child_object {span : RangeSet} {elems : Pairs} {key : Text} {v : Json} :
    (Json.object span elems).child key = some v ↔ ∃ kv, FirstWithKey elems key kv ∧ kv.value = v := by
  simp only [Json.child, Option.map_eq_some_iff, find_first]

/-- `get` follows the path. -/
theorem getParts_iff {v w : Json} {ks : List Text} : v.getParts ks = some w ↔ Resolves v ks w := by
  induction ks generalizing v with
  | nil =>
    simp only [Json.getParts, Option.some.injEq]
    exact ⟨fun h => h ▸ .here v, fun h => by cases h; rfl⟩
  | cons k ks ih =>
    simp only [Json.getParts, Option.bind_eq_some_iff, ih]
    constructor
    · rintro ⟨u, h1, h2⟩
      cases v with
      | object s e =>
        obtain ⟨kv, hk, rfl⟩ := child_object.1 h1
        exact .member hk h2
      | array s e =>
        simp only [Json.child, Option.bind_eq_some_iff] at h1
        obtain ⟨n, h3, h4⟩ := h1
        exact .element h3 h4 h2
      | _ => simp [Json.child] at h1
    · intro h
      cases h with
      | member h1 h2 => exact ⟨_, child_object.2 ⟨_, h1, rfl⟩, h2⟩
      | element h1 h2 h3 => exact ⟨_, by simp [Json.child, h1, h2], h3⟩

theorem get_iff {root w : Json} {path : Text} : root.get path = some w ↔ Resolves root (splitDots path) w :=
  getParts_iff

theorem names_unique {root : Json} {parts : List Text} {kv kv' : KeyValue} (h : NamesMember root parts kv)
    (h' : NamesMember root parts kv') : kv = kv' := by
  obtain ⟨f, k, s, e, rfl, h2, h3⟩ := h
  obtain ⟨f', k', s', e', h1', h2', h3'⟩ := h'
  obtain ⟨rfl, h5⟩ := List.append_inj' h1' rfl
  simp only [List.cons.injEq, and_true] at h5
  subst h5
  have := (getParts_iff.2 h2).symm.trans (getParts_iff.2 h2')
  simp only [Option.some.injEq, Json.object.injEq] at this
  obtain ⟨rfl, rfl⟩ := this
  exact Option.some.inj ((find_first.2 h3).symm.trans (find_first.2 h3'))

/-- The member found is the member the path names, for a path without empty parts. -/
theorem findMember_iff {root : Json} {path : Text} (hp : PlainPath path) {kv : KeyValue} :
    findMember root path = some kv ↔ NamesMember root (splitDots path) kv := by
  rw [plain_iff] at hp
  have hne : path ≠ [] := by
    rintro rfl
    exact hp [] (by simp [splitDots]) rfl
  unfold findMember splitJsonPath
  rw [if_neg (by simpa using hne)]
  have key : ∀ (front : List Text) (k : Text), (splitDots path = front ++ [k]) →
      (memberOf k (root.getParts front) = some kv ↔ NamesMember root (splitDots path) kv) := by
    intro front k hs
    rw [hs]
    constructor
    · intro h
      unfold memberOf at h
      split at h
      · rename_i s e hr
        exact ⟨front, k, s, e, rfl, getParts_iff.1 hr, find_first.1 h⟩
      · cases h
    · rintro ⟨f', k', s, e, h1, h2, h3⟩
      obtain ⟨rfl, h5⟩ := List.append_inj' h1 rfl
      simp only [List.cons.injEq, and_true] at h5
      subst h5
      rw [getParts_iff.2 h2]
      exact find_first.2 h3
  cases hr : rfindDot path with
  | none =>
    have hnd := rfindDot_none.1 hr
    have := key [] path (by rw [splitDots_nodot hnd]; rfl)
    simpa [Json.getParts] using this
  | some x =>
    obtain ⟨a, b⟩ := x
    obtain ⟨h1, h2⟩ := rfindDot_some hr
    have hs : splitDots path = splitDots a ++ [b] := by rw [h1, splitDots_append h2]
    have ha : a ≠ [] := by
      rintro rfl
      exact hp [] (by rw [hs]; simp [splitDots]) rfl
    have := key (splitDots a) b hs
    have e : a.isEmpty = false := by simpa using ha
    simpa [e, Json.get] using this

/-- A path that names a member leads to its value. -/
theorem resolves_append {u v w : Json} {ks ls : List Text} (h1 : Resolves u ks v) (h2 : Resolves v ls w) :
    Resolves u (ks ++ ls) w := by
  induction h1 with
  | here _ => exact h2
  | member h _ ih => exact .member h (ih h2)
  | element h h' _ ih => exact .element h h' (ih h2)

theorem NamesMember.resolves {root : Json} {parts : List Text} {kv : KeyValue} (h : NamesMember root parts kv) :
    Resolves root parts kv.value := by
  obtain ⟨f, k, s, e, rfl, h2, h3⟩ := h
  exact resolves_append h2 (.member h3 (.here _))

theorem resolves_below {n : Nat} {v w : Json} {ks : List Text} (h : Resolves v ks w) (hb : JsonBelow n v) :
    JsonBelow n w := by
  induction h with
  | here _ => exact hb
  | member h _ ih =>
    obtain ⟨_, _, h2, _⟩ := hb
    obtain ⟨_, b, a, h4, _⟩ := h
    exact ih (h2 _ _ rfl _ (by rw [h4]; simp))
  | element h h' _ ih =>
    obtain ⟨_, _, _, h3⟩ := hb
    exact ih (h3 _ _ rfl _ (List.mem_of_getElem? h'))

theorem names_below {n : Nat} {root : Json} {parts : List Text} {kv : KeyValue} (h : NamesMember root parts kv)
    (hb : JsonBelow n root) : Below n kv.span ∧ Below n kv.value.span := by
  obtain ⟨f, k, s, e, rfl, h2, h3⟩ := h
  obtain ⟨_, h5, h5', _⟩ := resolves_below h2 hb
  obtain ⟨_, b, a, h6, _⟩ := h3
  have h8 := h5' _ _ rfl kv (by rw [h6]; simp)
  exact ⟨h5 _ _ rfl kv (by rw [h6]; simp), by cases h8; assumption⟩

end Tlsn.Sdk
