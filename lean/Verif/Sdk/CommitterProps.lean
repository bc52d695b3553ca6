import Verif.Sdk.Committer
import Verif.Sdk.Spec
import Verif.Config.Props

/-! # C74: the default committers commit to each part of a message separately -/

namespace Tlsn.Sdk

/-! ## Specification -/

/-- The sets of positions of a JSON value that are committed to. -/
inductive JsonPart (w : ArrayFrame) : Json → RangeSet → Prop where
  /-- What is left of an object without its pairs. -/
  | braces {s elems idx} : (∀ i, i ∈ idx ↔ i ∈ s ∧ ∀ kv ∈ elems.toList, ¬ i ∈ kv.span) →
      JsonPart w (.object s elems) idx
  /-- A pair without its value. -/
  | key {s elems kv idx} : kv ∈ elems.toList → (∀ i, i ∈ idx ↔ i ∈ kv.span ∧ ¬ i ∈ kv.value.span) →
      JsonPart w (.object s elems) idx
  /-- The parts of a pair's value. -/
  | value {s elems kv idx} : kv ∈ elems.toList → JsonPart w kv.value idx → JsonPart w (.object s elems) idx
  | array {s elems} : JsonPart w (.array s elems) s
  | brackets {s elems} : elems.toList ≠ [] → JsonPart w (.array s elems) (w s elems)
  | string {s i} : i ∈ s → JsonPart w (.string s) s
  | number {s} : JsonPart w (.number s) s
  | bool {s} : JsonPart w (.bool s) s
  | null {s} : JsonPart w (.null s) s

/-- The sets of positions of a message that are committed to. -/
inductive MessagePart (w : ArrayFrame) (m : HttpMessage) : RangeSet → Prop where
  | whole : MessagePart w m m.span
  /-- The message without its target, headers and body, if it has headers or a body. -/
  | rest {idx} : (m.headers ≠ [] ∨ m.body ≠ none) →
      (∀ i, i ∈ idx ↔ i ∈ m.span ∧ (∀ s method target, m.start = .request s method target → ¬ i ∈ target) ∧
        (∀ h ∈ m.headers, ¬ i ∈ h.span) ∧ ∀ b, m.body = some b → ¬ i ∈ b.span) → MessagePart w m idx
  | target {s method t} : m.start = .request s method t → MessagePart w m t
  | header {h} : h ∈ m.headers → MessagePart w m h.span
  /-- A header without its value, unless the value is empty. -/
  | name {h i idx} : h ∈ m.headers → i ∈ h.value → (∀ j, j ∈ idx ↔ j ∈ h.span ∧ ¬ j ∈ h.value) → MessagePart w m idx
  | body {b} : m.body = some b → b.content = none → MessagePart w m b.span
  | json {b root idx} : m.body = some b → b.content = some root → JsonPart w root idx → MessagePart w m idx

/-- The member `kv` occurs in the document, below objects only. -/
inductive Member : Json → KeyValue → Prop where
  | here {s elems kv} : kv ∈ elems.toList → Member (.object s elems) kv
  | inside {s elems kv' kv} : kv' ∈ elems.toList → Member kv'.value kv → Member (.object s elems) kv

/-- Sets without a common position. -/
def Apart (a b : RangeSet) : Prop := ∀ i, i ∈ a → ¬ i ∈ b

/-- The positions of a document are nested as its elements are: pairs lie in their object and do not overlap, a
value lies in its pair. -/
inductive Nested : Json → Prop where
  | mk {v : Json} :
      (∀ s elems, v = .object s elems → ∀ kv ∈ elems.toList, kv.span ⊆ s) →
      (∀ s elems, v = .object s elems → ∀ kv ∈ elems.toList, kv.value.span ⊆ kv.span) →
      (∀ s elems, v = .object s elems → elems.toList.Pairwise fun a b => Apart a.span b.span) →
      (∀ s elems, v = .object s elems → ∀ kv ∈ elems.toList, Nested kv.value) → Nested v

/-- The positions of a message are nested as its elements are. -/
structure MessageNested (m : HttpMessage) : Prop where
  target : ∀ s method target, m.start = .request s method target →
    (∀ h ∈ m.headers, Apart target h.span) ∧ ∀ b, m.body = some b → Apart target b.span
  value : ∀ h ∈ m.headers, h.value ⊆ h.span
  headers : m.headers.Pairwise fun a b => Apart a.span b.span
  body : ∀ b, m.body = some b → (∀ h ∈ m.headers, Apart h.span b.span) ∧
    ∀ root, b.content = some root → root.span ⊆ b.span ∧ Nested root

/-- A value that can be withheld: that of a header, or that of a member of the JSON body. -/
inductive Value (m : HttpMessage) : RangeSet → Prop where
  | header {h} : h ∈ m.headers → Value m h.value
  | member {b root kv} : m.body = some b → b.content = some root → Member root kv → Value m kv.value.span

/-! ## The list of commitments -/

/-- The sets committed one after the other. -/
def commitSets (d : Direction) (b : CommitBuilder) : List RangeSet → Except IndexError CommitBuilder
  | [] => .ok b
  | s :: ss => match commitSet d b s with
    | .error e => .error e
    | .ok b1 => commitSets d b1 ss

theorem commitSets_append (d : Direction) (b : CommitBuilder) (l1 l2 : List RangeSet) :
    commitSets d b (l1 ++ l2) = match commitSets d b l1 with
      | .error e => .error e
      | .ok b1 => commitSets d b1 l2 := by
  induction l1 generalizing b with
  | nil => rfl
  | cons s ss ih =>
    rw [List.cons_append, commitSets, commitSets]
    cases commitSet d b s with
    | error e => rfl
    | ok b1 => exact ih b1

theorem commitSets_one (d : Direction) (b : CommitBuilder) (s : RangeSet) : commitSets d b [s] = commitSet d b s := by
  unfold commitSets
  cases commitSet d b s <;> rfl

mutual
def valueSets (w : ArrayFrame) : Json → List RangeSet
  | .object s elems => withoutPairs s elems :: pairSets w elems
  | .array s elems => if elems.toList.isEmpty then [s] else [s, w s elems]
  | .string s => if s.isEmpty then [] else [s]
  | .number s => [s]
  | .bool s => [s]
  | .null s => [s]
def pairSets (w : ArrayFrame) : Pairs → List RangeSet
  | .nil => []
  | .cons s k v rest => KeyValue.withoutValue ⟨s, k, v⟩ :: (valueSets w v ++ pairSets w rest)
end

mutual
theorem commitValue_eq (w : ArrayFrame) (d : Direction) (b : CommitBuilder) (v : Json) :
    commitValue w d b v = commitSets d b (valueSets w v) := by
  cases v with
  | object s elems =>
    unfold commitValue valueSets commitSets
    cases commitSet d b (withoutPairs s elems) with
    | error e => rfl
    | ok b1 => exact commitPairs_eq w d b1 elems
  | array s elems =>
    unfold commitValue valueSets commitArray
    by_cases he : elems.toList.isEmpty
    · simp only [he, if_true, commitSets_one]
      cases commitSet d b s <;> rfl
    · simp only [he, Bool.false_eq_true, if_false]
      rw [commitSets]
      cases commitSet d b s with
      | error e => rfl
      | ok b1 => exact (commitSets_one d b1 _).symm
  | string s =>
    unfold commitValue valueSets
    split
    · rfl
    · exact (commitSets_one d b _).symm
  | number s => unfold commitValue valueSets; exact (commitSets_one d b _).symm
  | bool s => unfold commitValue valueSets; exact (commitSets_one d b _).symm
  | null s => unfold commitValue valueSets; exact (commitSets_one d b _).symm
theorem commitPairs_eq (w : ArrayFrame) (d : Direction) (b : CommitBuilder) (p : Pairs) :
    commitPairs w d b p = commitSets d b (pairSets w p) := by
  cases p with
  | nil => rfl
  | cons s k v rest =>
    unfold commitPairs pairSets commitSets
    cases commitSet d b (KeyValue.withoutValue ⟨s, k, v⟩) with
    | error e => rfl
    | ok b1 =>
      simp only
      rw [commitSets_append, commitValue_eq w d b1 v]
      cases commitSets d b1 (valueSets w v) with
      | error e => rfl
      | ok b2 => exact commitPairs_eq w d b2 rest
end

/-- The sets of a message, in the order of the calls. -/
def messageSets (w : ArrayFrame) (m : HttpMessage) : List RangeSet :=
  [m.span] ++ ((if !m.headers.isEmpty || m.body.isSome then [m.withoutData] else []) ++
    ((match m.start with | .request _ _ target => [target] | .status .. => []) ++
      ((m.headers.flatMap fun h => if h.value.isEmpty then [h.span] else [h.span, h.withoutValue]) ++
        (match m.body with
          | none => []
          | some b => match b.content with
            | some root => valueSets w root
            | none => [b.span]))))

theorem commitHeaders_eq (d : Direction) (b : CommitBuilder) (hs : List Header) :
    commitHeaders d b hs =
      commitSets d b (hs.flatMap fun h => if h.value.isEmpty then [h.span] else [h.span, h.withoutValue]) := by
  induction hs generalizing b with
  | nil => rfl
  | cons h hs ih =>
    rw [List.flatMap_cons, commitSets_append]
    unfold commitHeaders commitHeader
    by_cases he : h.value.isEmpty
    · simp only [he, if_true, commitSets_one]
      cases commitSet d b h.span with
      | error e => rfl
      | ok b1 => exact ih b1
    · simp only [he, Bool.false_eq_true, if_false]
      rw [show [h.span, h.withoutValue] = [h.span] ++ [h.withoutValue] from rfl, commitSets_append, commitSets_one]
      cases commitSet d b h.span with
      | error e => rfl
      | ok b1 =>
        simp only [commitSets_one]
        cases commitSet d b1 h.withoutValue with
        | error e => rfl
        | ok b2 => exact ih b2

theorem commitMessage_eq (w : ArrayFrame) (d : Direction) (b : CommitBuilder) (m : HttpMessage) :
    commitMessage w d b m = commitSets d b (messageSets w m) := by
  unfold commitMessage messageSets
  rw [commitSets_append, commitSets_one]
  cases commitSet d b m.span with
  | error e => rfl
  | ok b1 =>
    simp only
    rw [commitSets_append]
    have h1 : commitRest d b1 m =
        commitSets d b1 (if !m.headers.isEmpty || m.body.isSome then [m.withoutData] else []) := by
      unfold commitRest
      split
      · exact (commitSets_one _ _ _).symm
      · rfl
    rw [h1]
    cases commitSets d b1 (if !m.headers.isEmpty || m.body.isSome then [m.withoutData] else []) with
    | error e => rfl
    | ok b2 =>
      simp only
      rw [commitSets_append]
      have h2 : commitTarget d b2 m =
          commitSets d b2 (match m.start with | .request _ _ target => [target] | .status .. => []) := by
        unfold commitTarget
        cases m.start
        · exact (commitSets_one _ _ _).symm
        · rfl
      rw [h2]
      cases commitSets d b2 (match m.start with | .request _ _ target => [target] | .status .. => []) with
      | error e => rfl
      | ok b3 =>
        simp only
        rw [commitSets_append, commitHeaders_eq]
        cases commitSets d b3
          (m.headers.flatMap fun h => if h.value.isEmpty then [h.span] else [h.span, h.withoutValue]) with
        | error e => rfl
        | ok b4 =>
          simp only
          cases m.body with
          | none => rfl
          | some body =>
            simp only
            unfold commitBody
            cases body.content with
            | none => exact (commitSets_one _ _ _).symm
            | some root => exact commitValue_eq w d b4 root

theorem ofRanges_self (s : RangeSet) : RangeSet.ofRanges s.ranges = s :=
  RangeSet.ext fun i => by rw [RangeSet.mem_ofRanges]; exact Iff.rfl

theorem commitSet_ok {d : Direction} {b b' : CommitBuilder} {s : RangeSet} (h : commitSet d b s = .ok b') :
    b'.transcript = b.transcript ∧ b'.defaultKind = b.defaultKind ∧ Below (b.transcript.data d).length s ∧
    ∀ e, e ∈ b'.commits ↔ e ∈ b.commits ∨ e = ((d, s), b.defaultKind) := by
  unfold commitSet CommitBuilder.commit at h
  rw [ofRanges_self] at h
  by_cases hb : s.endD > b.transcript.lenOfDirection d
  · rw [commitInner_err hb] at h; cases h
  · rw [commitInner_ok hb] at h
    cases h
    refine ⟨rfl, rfl, ?_, fun e => ?_⟩
    · rw [Nat.not_lt, RangeSet.endD_le_iff, lenOfDirection_eq] at hb
      exact hb
    · simp only
      split
      · rename_i hm
        exact ⟨.inl, fun h => h.elim id fun h => h ▸ hm⟩
      · rw [List.mem_cons]; exact ⟨fun h => h.symm, fun h => h.symm⟩

theorem commitSet_total {d : Direction} {b : CommitBuilder} {s : RangeSet}
    (h : Below (b.transcript.data d).length s) : ∃ b', commitSet d b s = .ok b' := by
  unfold commitSet CommitBuilder.commit
  rw [ofRanges_self, commitInner_ok]
  · exact ⟨_, rfl⟩
  · rw [Nat.not_lt, RangeSet.endD_le_iff, lenOfDirection_eq]; exact h

theorem commitSets_ok {d : Direction} {b b' : CommitBuilder} {l : List RangeSet} (h : commitSets d b l = .ok b') :
    b'.transcript = b.transcript ∧ b'.defaultKind = b.defaultKind ∧
    (∀ s ∈ l, Below (b.transcript.data d).length s) ∧
    ∀ e, e ∈ b'.commits ↔ e ∈ b.commits ∨ ∃ s ∈ l, e = ((d, s), b.defaultKind) := by
  induction l generalizing b with
  | nil => cases h; exact ⟨rfl, rfl, by simp, by simp⟩
  | cons s l ih =>
    unfold commitSets at h
    cases h1 : commitSet d b s with
    | error e => rw [h1] at h; cases h
    | ok b1 =>
      rw [h1] at h
      obtain ⟨a1, a2, a3, a4⟩ := commitSet_ok h1
      obtain ⟨c1, c2, c3, c4⟩ := ih h
      rw [a1] at c1 c3
      rw [a2] at c2 c4
      refine ⟨c1, c2, ?_, fun e => ?_⟩
      · intro x hx
        rcases List.mem_cons.1 hx with rfl | hx
        · exact a3
        · exact c3 x hx
      · rw [c4, a4]
        simp only [List.mem_cons, exists_eq_or_imp, or_assoc]

theorem commitSets_total {d : Direction} {b : CommitBuilder} {l : List RangeSet}
    (h : ∀ s ∈ l, Below (b.transcript.data d).length s) : ∃ b', commitSets d b l = .ok b' := by
  induction l generalizing b with
  | nil => exact ⟨b, rfl⟩
  | cons s l ih =>
    obtain ⟨b1, h1⟩ := commitSet_total (h s (by simp))
    unfold commitSets
    rw [h1]
    refine ih ?_
    rw [(commitSet_ok h1).1]
    exact fun x hx => h x (List.mem_cons_of_mem _ hx)

/-! ## The list and the specification -/

theorem mem_foldl_diff {α : Type} (f : α → RangeSet) (l : List α) (s : RangeSet) (i : Nat) :
    i ∈ l.foldl (fun acc x => acc.diff (f x)) s ↔ i ∈ s ∧ ∀ x ∈ l, ¬ i ∈ f x := by
  induction l generalizing s with
  | nil => simp
  | cons x l ih => rw [List.foldl_cons, ih]; simp [and_assoc]

theorem pairSets_mem (w : ArrayFrame) (p : Pairs) (idx : RangeSet) :
    idx ∈ pairSets w p ↔ ∃ kv ∈ p.toList, idx = kv.withoutValue ∨ idx ∈ valueSets w kv.value := by
  cases p with
  | nil => simp [pairSets, Pairs.toList]
  | cons s k v rest =>
    unfold pairSets Pairs.toList
    rw [List.mem_cons, List.mem_append, pairSets_mem w rest]
    simp only [List.mem_cons, exists_eq_or_imp, or_assoc]

theorem Pairs.value_sizeOf {p : Pairs} {kv : KeyValue} (h : kv ∈ p.toList) : sizeOf kv.value < sizeOf p := by
  cases p with
  | nil => cases h
  | cons s k v rest =>
    unfold Pairs.toList at h
    rcases List.mem_cons.1 h with rfl | h
    · simp only [Pairs.cons.sizeOf_spec]; omega
    · have := Pairs.value_sizeOf h
      simp only [Pairs.cons.sizeOf_spec]; omega

theorem valueSets_mem (w : ArrayFrame) (v : Json) (idx : RangeSet) : idx ∈ valueSets w v ↔ JsonPart w v idx := by
  cases v with
  | object s elems =>
    unfold valueSets
    rw [List.mem_cons, pairSets_mem]
    have hrec : ∀ kv ∈ elems.toList, idx ∈ valueSets w kv.value ↔ JsonPart w kv.value idx := fun kv hkv => by
      have := Pairs.value_sizeOf hkv
      exact valueSets_mem w kv.value idx
    constructor
    · rintro (rfl | ⟨kv, hkv, rfl | h⟩)
      · exact .braces fun i => mem_foldl_diff _ _ _ _
      · exact .key hkv fun i => by simp [KeyValue.withoutValue]
      · exact .value hkv ((hrec kv hkv).1 h)
    · intro h
      cases h with
      | braces h =>
        exact .inl (RangeSet.ext fun i => (h i).trans (mem_foldl_diff _ _ _ _).symm)
      | key hkv h =>
        exact .inr ⟨_, hkv, .inl (RangeSet.ext fun i => (h i).trans (by simp [KeyValue.withoutValue]))⟩
      | value hkv h => exact .inr ⟨_, hkv, .inr ((hrec _ hkv).2 h)⟩
  | array s elems =>
    unfold valueSets
    split
    · rename_i he
      rw [List.isEmpty_iff] at he
      constructor
      · intro h
        simp only [List.mem_cons, List.not_mem_nil, or_false] at h
        subst h; exact .array
      · intro h
        cases h with
        | array => simp
        | brackets h => exact (h he).elim
    · rename_i he
      rw [List.isEmpty_iff] at he
      constructor
      · intro h
        simp only [List.mem_cons, List.not_mem_nil, or_false] at h
        rcases h with rfl | rfl
        · exact .array
        · exact .brackets he
      · intro h
        cases h <;> simp
  | string s =>
    unfold valueSets
    split
    · rename_i he
      refine ⟨fun h => (List.not_mem_nil h).elim, fun h => ?_⟩
      cases h with
      | string h => exact absurd h (RangeSet.isEmpty_iff.1 he _)
    · rename_i he
      constructor
      · intro h
        simp only [List.mem_cons, List.not_mem_nil, or_false] at h
        subst h
        rcases Classical.not_forall.1 (fun h => he (RangeSet.isEmpty_iff.2 h)) with ⟨i, hi⟩
        exact .string (Classical.not_not.1 hi)
      · intro h; cases h; simp
  | number s =>
    unfold valueSets
    exact ⟨fun h => by simp only [List.mem_cons, List.not_mem_nil, or_false] at h; subst h; exact .number,
      fun h => by cases h; simp⟩
  | bool s =>
    unfold valueSets
    exact ⟨fun h => by simp only [List.mem_cons, List.not_mem_nil, or_false] at h; subst h; exact .bool,
      fun h => by cases h; simp⟩
  | null s =>
    unfold valueSets
    exact ⟨fun h => by simp only [List.mem_cons, List.not_mem_nil, or_false] at h; subst h; exact .null,
      fun h => by cases h; simp⟩
termination_by sizeOf v
decreasing_by simp_wf; omega

theorem withoutData_mem (m : HttpMessage) (i : Nat) : i ∈ m.withoutData ↔
    i ∈ m.span ∧ (∀ s method target, m.start = .request s method target → ¬ i ∈ target) ∧
      (∀ h ∈ m.headers, ¬ i ∈ h.span) ∧ ∀ b, m.body = some b → ¬ i ∈ b.span := by
  unfold HttpMessage.withoutData
  cases m.start <;> cases m.body <;> simp [mem_foldl_diff, and_assoc]

theorem messageSets_mem (w : ArrayFrame) (m : HttpMessage) (idx : RangeSet) :
    idx ∈ messageSets w m ↔ MessagePart w m idx := by
  unfold messageSets
  simp only [List.mem_append, List.mem_cons, List.not_mem_nil, or_false, List.mem_flatMap]
  constructor
  · rintro (rfl | h | h | ⟨h, hh, hi⟩ | h)
    · exact .whole
    · split at h
      · rename_i hc
        simp only [List.mem_cons, List.not_mem_nil, or_false] at h
        subst h
        refine .rest ?_ (withoutData_mem m)
        simp only [Bool.or_eq_true, Bool.not_eq_true', List.isEmpty_eq_false_iff] at hc
        exact hc.imp id fun h => by rw [← Option.isSome_iff_ne_none]; exact h
      · cases h
    · cases hs : m.start with
      | request s me ta =>
        rw [hs] at h
        simp only [List.mem_cons, List.not_mem_nil, or_false] at h
        subst h
        exact .target hs
      | status s co re => rw [hs] at h; cases h
    · split at hi
      · simp only [List.mem_cons, List.not_mem_nil, or_false] at hi
        subst hi
        exact .header hh
      · rename_i he
        simp only [List.mem_cons, List.not_mem_nil, or_false] at hi
        rcases hi with rfl | rfl
        · exact .header hh
        · rcases Classical.not_forall.1 (fun h => he (RangeSet.isEmpty_iff.2 h)) with ⟨i, hi⟩
          exact .name hh (Classical.not_not.1 hi) fun j => by simp [Header.withoutValue]
    · cases hb : m.body with
      | none => rw [hb] at h; cases h
      | some b =>
        rw [hb] at h
        simp only at h
        cases hc : b.content with
        | none =>
          rw [hc] at h
          simp only [List.mem_cons, List.not_mem_nil, or_false] at h
          subst h
          exact .body hb hc
        | some root =>
          rw [hc] at h
          exact .json hb hc ((valueSets_mem w root idx).1 h)
  · intro h
    cases h with
    | whole => exact .inl rfl
    | rest hc h =>
      refine .inr (.inl ?_)
      rw [if_pos]
      · simp only [List.mem_cons, List.not_mem_nil, or_false]
        exact RangeSet.ext fun i => (h i).trans (withoutData_mem m i).symm
      · simp only [Bool.or_eq_true, Bool.not_eq_true', List.isEmpty_eq_false_iff]
        exact hc.imp id fun h => Option.isSome_iff_ne_none.2 h
    | target h => exact .inr (.inr (.inl (by rw [h]; simp)))
    | header hh => exact .inr (.inr (.inr (.inl ⟨_, hh, by split <;> simp⟩)))
    | @name h i _ hh hi hj =>
      refine .inr (.inr (.inr (.inl ⟨_, hh, ?_⟩)))
      rw [if_neg (fun he => RangeSet.isEmpty_iff.1 he i hi)]
      simp only [List.mem_cons, List.not_mem_nil, or_false]
      exact .inr (RangeSet.ext fun j => (hj j).trans (by simp [Header.withoutValue]))
    | body hb hc => exact .inr (.inr (.inr (.inr (by rw [hb]; simp [hc]))))
    | json hb hc h =>
      refine .inr (.inr (.inr (.inr ?_)))
      rw [hb]; simp only [hc]
      exact (valueSets_mem w _ _).2 h

/-! ## The properties -/

/-- **C74** What one message adds to the commitments: exactly its parts, in the given direction, with the builder's
default algorithm. -/
theorem C74_message_exact (w : ArrayFrame) (d : Direction) (b b' : CommitBuilder) (m : HttpMessage)
    (h : commitMessage w d b m = .ok b') (d' : Direction) (idx : RangeSet) (k : HashAlgId) :
    ((d', idx), k) ∈ b'.commits ↔
      ((d', idx), k) ∈ b.commits ∨ (d' = d ∧ k = b.defaultKind ∧ MessagePart w m idx) := by
  rw [commitMessage_eq] at h
  rw [(commitSets_ok h).2.2.2]
  simp only [messageSets_mem, Prod.mk.injEq]
  constructor
  · rintro (h | ⟨s, hs, ⟨rfl, rfl⟩, rfl⟩)
    · exact .inl h
    · exact .inr ⟨rfl, rfl, hs⟩
  · rintro (h | ⟨rfl, rfl, hs⟩)
    · exact .inl h
    · exact .inr ⟨idx, hs, ⟨rfl, rfl⟩, rfl⟩

theorem jsonPart_below {w : ArrayFrame} (hw : ∀ s e, w s e ⊆ s) {n : Nat} {v : Json} {idx : RangeSet}
    (h : JsonPart w v idx) (hb : JsonBelow n v) : Below n idx := by
  induction h with
  | braces h => cases hb with | mk h1 _ _ _ => exact fun i hi => h1 i ((h i).1 hi).1
  | key hkv h => cases hb with | mk _ h2 _ _ => exact fun i hi => h2 _ _ rfl _ hkv i ((h i).1 hi).1
  | value hkv _ ih => cases hb with | mk _ _ h3 _ => exact ih (h3 _ _ rfl _ hkv)
  | array => cases hb with | mk h1 _ _ _ => exact h1
  | brackets => cases hb with | mk h1 _ _ _ => exact fun i hi => h1 i (hw _ _ i hi)
  | string => cases hb with | mk h1 _ _ _ => exact h1
  | number => cases hb with | mk h1 _ _ _ => exact h1
  | bool => cases hb with | mk h1 _ _ _ => exact h1
  | null => cases hb with | mk h1 _ _ _ => exact h1

theorem part_below {w : ArrayFrame} (hw : ∀ s e, w s e ⊆ s) {n : Nat} {m : HttpMessage} {idx : RangeSet}
    (h : MessagePart w m idx) (hb : MessageBelow n m) : Below n idx := by
  cases h with
  | whole => exact hb.span
  | rest _ h => exact fun i hi => hb.span i ((h i).1 hi).1
  | target h => exact (hb.request _ _ _ h).2
  | header hh => exact (hb.headers _ hh).1
  | name hh _ h => exact fun i hi => (hb.headers _ hh).1 i ((h i).1 hi).1
  | body hm _ => exact (hb.body _ hm).1
  | json hm hc h => exact jsonPart_below hw h ((hb.body _ hm).2 _ hc)

/-- **C74** Committing to a message never fails when its positions lie in the transcript. -/
theorem C74_message_total (w : ArrayFrame) (hw : ∀ s e, w s e ⊆ s) (d : Direction) (b : CommitBuilder)
    (m : HttpMessage) (hm : MessageBelow (b.transcript.data d).length m) :
    ∃ b', commitMessage w d b m = .ok b' ∧ b'.transcript = b.transcript ∧ b'.defaultKind = b.defaultKind := by
  rw [commitMessage_eq]
  obtain ⟨b', h⟩ := commitSets_total (d := d) (b := b) (l := messageSets w m)
    fun s hs => part_below hw ((messageSets_mem w m s).1 hs) hm
  exact ⟨b', h, (commitSets_ok h).1, (commitSets_ok h).2.1⟩

theorem commitMessages_exact {w : ArrayFrame} {d : Direction} {b b' : CommitBuilder} {ms : List HttpMessage}
    (h : commitMessages w d b ms = .ok b') :
    b'.transcript = b.transcript ∧ b'.defaultKind = b.defaultKind ∧
    ∀ d' idx k, ((d', idx), k) ∈ b'.commits ↔
      ((d', idx), k) ∈ b.commits ∨ (d' = d ∧ k = b.defaultKind ∧ ∃ m ∈ ms, MessagePart w m idx) := by
  induction ms generalizing b with
  | nil => cases h; exact ⟨rfl, rfl, by simp⟩
  | cons m ms ih =>
    unfold commitMessages at h
    cases h1 : commitMessage w d b m with
    | error e => rw [h1] at h; cases h
    | ok b1 =>
      rw [h1] at h
      obtain ⟨a1, a2, a3⟩ := ih h
      have hx := C74_message_exact w d b b1 m h1
      have hy := h1
      rw [commitMessage_eq] at hy
      obtain ⟨c1, c2, -, -⟩ := commitSets_ok hy
      refine ⟨a1.trans c1, a2.trans c2, fun d' idx k => ?_⟩
      rw [a3, hx, c2]
      simp only [List.mem_cons, exists_eq_or_imp]
      constructor
      · rintro ((h | ⟨h1, h2, h3⟩) | ⟨h1, h2, h3⟩)
        · exact .inl h
        · exact .inr ⟨h1, h2, .inl h3⟩
        · exact .inr ⟨h1, h2, .inr h3⟩
      · rintro (h | ⟨h1, h2, h3 | h3⟩)
        · exact .inl (.inl h)
        · exact .inl (.inr ⟨h1, h2, h3⟩)
        · exact .inr ⟨h1, h2, h3⟩

theorem commitMessages_total {w : ArrayFrame} (hw : ∀ s e, w s e ⊆ s) {d : Direction} {b : CommitBuilder}
    {ms : List HttpMessage} (hm : ∀ m ∈ ms, MessageBelow (b.transcript.data d).length m) :
    ∃ b', commitMessages w d b ms = .ok b' := by
  induction ms generalizing b with
  | nil => exact ⟨b, rfl⟩
  | cons m ms ih =>
    obtain ⟨b1, h1, h2, _⟩ := C74_message_total w hw d b m (hm m (by simp))
    unfold commitMessages
    rw [h1]
    exact ih (by rw [h2]; exact fun x hx => hm x (List.mem_cons_of_mem _ hx))

/-- **C74** Committing to a parsed transcript succeeds, and the configuration then holds a commitment exactly for the parts
of the requests in the sent data and the parts of the responses in the received data. -/
theorem C74_transcript (w : ArrayFrame) (hw : ∀ s e, w s e ⊆ s) (t : Transcript) (alg : HashAlgId)
    (requests responses : List HttpMessage) (hq : ∀ m ∈ requests, MessageBelow t.sent.length m)
    (hr : ∀ m ∈ responses, MessageBelow t.received.length m) (order : List CommitEntry → List CommitEntry)
    (ho : ∀ l, (order l).Perm l) :
    ∃ b, commitTranscript w ((CommitBuilder.new t).setDefaultKind alg) requests responses = .ok b ∧
      ∀ d idx k, (d, idx, k) ∈ (b.build order).toRequest.hash ↔ k = alg ∧
        ∃ m ∈ (match d with | .sent => requests | .received => responses), MessagePart w m idx := by
  unfold commitTranscript
  obtain ⟨b1, h1⟩ := commitMessages_total hw (d := .sent) (b := (CommitBuilder.new t).setDefaultKind alg) hq
  obtain ⟨a1, a2, a3⟩ := commitMessages_exact h1
  obtain ⟨b2, h2⟩ := commitMessages_total hw (d := .received) (b := b1) (ms := responses) (by rw [a1]; exact hr)
  obtain ⟨c1, c2, c3⟩ := commitMessages_exact h2
  rw [h1]
  refine ⟨b2, h2, fun d idx k => ?_⟩
  have hk : b1.defaultKind = alg := a2
  have : (d, idx, k) ∈ (b2.build order).toRequest.hash ↔ ((d, idx), k) ∈ b2.commits := by
    simp only [CommitBuilder.build, CommitConfig.toRequest, List.mem_map, Prod.mk.injEq]
    constructor
    · rintro ⟨⟨⟨x, y⟩, z⟩, h, rfl, rfl, rfl⟩; exact (ho _).mem_iff.1 h
    · intro h; exact ⟨_, (ho _).mem_iff.2 h, rfl, rfl, rfl⟩
  rw [this, c3, a3, hk]
  have hn : ¬ ((d, idx), k) ∈ ((CommitBuilder.new t).setDefaultKind alg).commits := by
    simp [CommitBuilder.new, CommitBuilder.setDefaultKind]
  have hk' : ((CommitBuilder.new t).setDefaultKind alg).defaultKind = alg := rfl
  rw [hk']
  cases d <;> simp [hn]

/-! ## Selective disclosure -/

theorem apart_of_pairwise {α : Type} (f : α → RangeSet) {l : List α} (h : l.Pairwise fun a b => Apart (f a) (f b))
    {a b : α} (ha : a ∈ l) (hb : b ∈ l) : a = b ∨ Apart (f a) (f b) := by
  induction l with
  | nil => cases ha
  | cons x l ih =>
    rw [List.pairwise_cons] at h
    rcases List.mem_cons.1 ha with ha' | ha'
    · rcases List.mem_cons.1 hb with hb' | hb'
      · exact .inl (ha'.trans hb'.symm)
      · exact .inr (ha' ▸ h.1 b hb')
    · rcases List.mem_cons.1 hb with hb' | hb'
      · subst hb'; exact .inr fun i h1 h2 => h.1 a ha' i h2 h1
      · exact ih h.2 ha' hb'

theorem member_subset {v : Json} {kv : KeyValue} (h : Member v kv) (hn : Nested v) : kv.value.span ⊆ v.span := by
  induction h with
  | here hkv =>
    cases hn with | mk h1 h2 _ _ => exact fun i hi => h1 _ _ rfl _ hkv i (h2 _ _ rfl _ hkv i hi)
  | inside hkv _ ih =>
    cases hn with
    | mk h1 h2 _ h4 => exact fun i hi => h1 _ _ rfl _ hkv i (h2 _ _ rfl _ hkv i (ih (h4 _ _ rfl _ hkv) i hi))

/-- The part of a document holding a position avoids every member value not holding it. -/
theorem json_selective (w : ArrayFrame) {v : Json} (hn : Nested v) {i : Nat} (hi : i ∈ v.span) :
    ∃ idx, JsonPart w v idx ∧ i ∈ idx ∧ idx ⊆ v.span ∧
      ∀ kv, Member v kv → ¬ i ∈ kv.value.span → Apart idx kv.value.span := by
  induction hn with
  | @mk v h1 h2 h3 h4 ih =>
    cases v with
    | object s elems =>
      have hi' : i ∈ s := hi
      by_cases hk : ∃ kv ∈ elems.toList, i ∈ kv.span
      · obtain ⟨kv, hkv, hik⟩ := hk
        have hother : ∀ kv' ∈ elems.toList, kv' = kv ∨ Apart kv.span kv'.span := fun kv' h' =>
          (apart_of_pairwise _ (h3 _ _ rfl) hkv h').imp Eq.symm id
        by_cases hiv : i ∈ kv.value.span
        · obtain ⟨idx, a1, a2, a3, a4⟩ := ih _ _ rfl kv hkv hiv
          refine ⟨idx, .value hkv a1, a2, fun j hj => h1 _ _ rfl _ hkv j (h2 _ _ rfl _ hkv j (a3 j hj)), ?_⟩
          intro kv' hm hni
          cases hm with
          | here h' =>
            rcases hother kv' h' with rfl | hap
            · exact (hni hiv).elim
            · exact fun j hj hj' => hap j (h2 _ _ rfl _ hkv j (a3 j hj)) (h2 _ _ rfl _ h' j hj')
          | @inside _ _ top _ h' hm' =>
            rcases hother top h' with rfl | hap
            · exact a4 kv' hm' hni
            · exact fun j hj hj' => hap j (h2 _ _ rfl _ hkv j (a3 j hj))
                (h2 _ _ rfl _ h' j (member_subset hm' (h4 _ _ rfl _ h') j hj'))
        · refine ⟨kv.withoutValue, .key hkv fun j => by simp [KeyValue.withoutValue], by
            simp [KeyValue.withoutValue, hik, hiv], fun j hj => ?_, ?_⟩
          · simp only [KeyValue.withoutValue, RangeSet.mem_diff] at hj
            exact h1 _ _ rfl _ hkv j hj.1
          · intro kv' hm hni j hj hj'
            simp only [KeyValue.withoutValue, RangeSet.mem_diff] at hj
            cases hm with
            | here h' =>
              rcases hother kv' h' with rfl | hap
              · exact hj.2 hj'
              · exact hap j hj.1 (h2 _ _ rfl _ h' j hj')
            | @inside _ _ top _ h' hm' =>
              have hj'' := member_subset hm' (h4 _ _ rfl _ h') j hj'
              rcases hother top h' with rfl | hap
              · exact hj.2 hj''
              · exact hap j hj.1 (h2 _ _ rfl _ h' j hj'')
      · refine ⟨withoutPairs s elems, .braces fun j => mem_foldl_diff _ _ _ _, ?_, ?_, ?_⟩
        · exact (mem_foldl_diff _ _ _ _).2 ⟨hi', fun kv hkv h => hk ⟨kv, hkv, h⟩⟩
        · exact fun j hj => ((mem_foldl_diff _ _ _ _).1 hj).1
        · intro kv' hm hni j hj hj'
          have hj := ((mem_foldl_diff _ _ _ _).1 hj).2
          cases hm with
          | here h' => exact hj _ h' (h2 _ _ rfl _ h' j hj')
          | inside h' hm' => exact hj _ h' (h2 _ _ rfl _ h' j (member_subset hm' (h4 _ _ rfl _ h') j hj'))
    | array s elems => exact ⟨s, .array, hi, fun _ h => h, fun kv hm => by cases hm⟩
    | string s => exact ⟨s, .string hi, hi, fun _ h => h, fun kv hm => by cases hm⟩
    | number s => exact ⟨s, .number, hi, fun _ h => h, fun kv hm => by cases hm⟩
    | bool s => exact ⟨s, .bool, hi, fun _ h => h, fun kv hm => by cases hm⟩
    | null s => exact ⟨s, .null, hi, fun _ h => h, fun kv hm => by cases hm⟩

theorem value_outside {m : HttpMessage} (hm : MessageNested m) {V : RangeSet} (hv : Value m V) (j : Nat) (hj : j ∈ V) :
    (∃ h ∈ m.headers, j ∈ h.span) ∨ ∃ b, m.body = some b ∧ j ∈ b.span := by
  cases hv with
  | header hh => exact .inl ⟨_, hh, hm.value _ hh j hj⟩
  | member hb hc hmem =>
    obtain ⟨h1, h2⟩ := (hm.body _ hb).2 _ hc
    exact .inr ⟨_, hb, h1 j (member_subset hmem h2 j hj)⟩

/-- **C74** Every value can be withheld on its own: each position of the message lies in a committed part that avoids all
header values and all member values not holding the position.  So opening the parts that avoid the withheld
values discloses everything else.  (In a JSON body, the positions are those of the document: see `C74_padding`.) -/
theorem C74_selective (w : ArrayFrame) (m : HttpMessage) (hm : MessageNested m) (i : Nat) (hi : i ∈ m.span)
    (hdoc : ∀ b root, m.body = some b → b.content = some root → i ∈ b.span → i ∈ root.span) :
    ∃ idx, MessagePart w m idx ∧ i ∈ idx ∧ ∀ V, Value m V → ¬ i ∈ V → Apart idx V := by
  by_cases ht : ∃ s method target, m.start = .request s method target ∧ i ∈ target
  · obtain ⟨s, method, target, hs, hit⟩ := ht
    obtain ⟨h1, h2⟩ := hm.target _ _ _ hs
    refine ⟨target, .target hs, hit, fun V hV _ j hj hj' => ?_⟩
    rcases value_outside hm hV j hj' with ⟨h, hh, hjh⟩ | ⟨b, hb, hjb⟩
    · exact h1 h hh j hj hjh
    · exact h2 b hb j hj hjb
  · by_cases hh : ∃ h ∈ m.headers, i ∈ h.span
    · obtain ⟨h, hh, hih⟩ := hh
      have hother : ∀ h' ∈ m.headers, h' = h ∨ Apart h.span h'.span := fun h' hh' =>
        (apart_of_pairwise _ hm.headers hh hh').imp Eq.symm id
      have key : ∀ idx : RangeSet, idx ⊆ h.span → (¬ i ∈ h.value → Apart idx h.value) →
          ∀ V, Value m V → ¬ i ∈ V → Apart idx V := by
        intro idx hsub hval V hV hni j hj hj'
        cases hV with
        | @header h' hh' =>
          rcases hother h' hh' with rfl | hap
          · exact hval hni j hj hj'
          · exact hap j (hsub j hj) (hm.value _ hh' j hj')
        | member hb hc hmem =>
          obtain ⟨h1, h2⟩ := (hm.body _ hb).2 _ hc
          exact (hm.body _ hb).1 h hh j (hsub j hj) (h1 j (member_subset hmem h2 j hj'))
      by_cases hiv : i ∈ h.value
      · exact ⟨h.span, .header hh, hih, key _ (fun _ h => h) fun h => (h hiv).elim⟩
      · by_cases hne : ∃ j, j ∈ h.value
        · obtain ⟨j, hj⟩ := hne
          refine ⟨h.withoutValue, .name hh hj fun k => by simp [Header.withoutValue], by
            simp [Header.withoutValue, hih, hiv], key _ ?_ ?_⟩
          · intro k hk
            simp only [Header.withoutValue, RangeSet.mem_diff] at hk
            exact hk.1
          · intro _ k hk
            simp only [Header.withoutValue, RangeSet.mem_diff] at hk
            exact hk.2
        · exact ⟨h.span, .header hh, hih, key _ (fun _ h => h) fun _ j _ hj => hne ⟨j, hj⟩⟩
    · by_cases hb : ∃ b, m.body = some b ∧ i ∈ b.span
      · obtain ⟨b, hb, hib⟩ := hb
        cases hc : b.content with
        | none =>
          refine ⟨b.span, .body hb hc, hib, fun V hV _ j hj hj' => ?_⟩
          cases hV with
          | header hh' => exact (hm.body _ hb).1 _ hh' j (hm.value _ hh' j hj') hj
          | member hb' hc' _ => rw [hb] at hb'; cases hb'; rw [hc] at hc'; cases hc'
        | some root =>
          obtain ⟨h1, h2⟩ := (hm.body _ hb).2 _ hc
          obtain ⟨idx, a1, a2, a3, a4⟩ := json_selective w h2 (hdoc b root hb hc hib)
          refine ⟨idx, .json hb hc a1, a2, fun V hV hni j hj hj' => ?_⟩
          cases hV with
          | header hh' => exact (hm.body _ hb).1 _ hh' j (hm.value _ hh' j hj') (h1 j (a3 j hj))
          | member hb' hc' hmem =>
            rw [hb] at hb'; cases hb'; rw [hc] at hc'; cases hc'
            exact a4 _ hmem hni j hj hj'
      · by_cases hd : m.headers ≠ [] ∨ m.body ≠ none
        · refine ⟨m.withoutData, .rest hd (withoutData_mem m), (withoutData_mem m i).2 ⟨hi, ?_, ?_, ?_⟩, ?_⟩
          · exact fun s me ta hs hit => ht ⟨s, me, ta, hs, hit⟩
          · exact fun h hh' hih => hh ⟨h, hh', hih⟩
          · exact fun b hb' hib => hb ⟨b, hb', hib⟩
          · intro V hV _ j hj hj'
            obtain ⟨-, -, c1, c2⟩ := (withoutData_mem m j).1 hj
            rcases value_outside hm hV j hj' with ⟨h, hh', hjh⟩ | ⟨b, hb', hjb⟩
            · exact c1 h hh' hjh
            · exact c2 b hb' hjb
        · rw [not_or, Classical.not_not, Classical.not_not] at hd
          refine ⟨m.span, .whole, hi, fun V hV => ?_⟩
          cases hV with
          | header hh' => rw [hd.1] at hh'; cases hh'
          | member hb' _ _ => rw [hd.2] at hb'; cases hb'

/-- **C74** Withholding any set of values: the parts that avoid them disclose exactly the positions outside them. -/
theorem C74_withhold (w : ArrayFrame) (m : HttpMessage) (hm : MessageNested m) (hidden : RangeSet → Prop)
    (hh : ∀ V, hidden V → Value m V) (i : Nat) (hi : i ∈ m.span)
    (hdoc : ∀ b root, m.body = some b → b.content = some root → i ∈ b.span → i ∈ root.span) :
    (∃ idx, MessagePart w m idx ∧ (∀ V, hidden V → Apart idx V) ∧ i ∈ idx) ↔ ∀ V, hidden V → ¬ i ∈ V := by
  constructor
  · rintro ⟨idx, _, h2, h3⟩ V hV
    exact h2 V hV i h3
  · intro h
    obtain ⟨idx, a1, a2, a3⟩ := C74_selective w m hm i hi hdoc
    exact ⟨idx, a1, fun V hV => a3 V (hh V hV) (h V hV), a2⟩

theorem jsonPart_subset {w : ArrayFrame} (hw : ∀ s e, w s e ⊆ s) {v : Json} {idx : RangeSet} (h : JsonPart w v idx)
    (hn : Nested v) : idx ⊆ v.span := by
  induction h with
  | braces h => exact fun j hj => ((h j).1 hj).1
  | key hkv h => cases hn with | mk h1 _ _ _ => exact fun j hj => h1 _ _ rfl _ hkv j ((h j).1 hj).1
  | value hkv _ ih =>
    cases hn with
    | mk h1 h2 _ h4 => exact fun j hj => h1 _ _ rfl _ hkv j (h2 _ _ rfl _ hkv j (ih (h4 _ _ rfl _ hkv) j hj))
  | brackets => exact hw _ _
  | _ => exact fun j hj => hj

/-- **C74** The exception: the bytes of a JSON body outside the document (white space around it, the quotes of a bare string)
are committed to only together with the whole message, so disclosing them means disclosing every value. -/
theorem C74_padding (w : ArrayFrame) (hw : ∀ s e, w s e ⊆ s) (m : HttpMessage) (hm : MessageNested m) (b : Body)
    (root : Json) (hb : m.body = some b) (hc : b.content = some root) (i : Nat) (hi : i ∈ b.span)
    (hni : ¬ i ∈ root.span) (idx : RangeSet) (hp : MessagePart w m idx) (hidx : i ∈ idx) : idx = m.span := by
  cases hp with
  | whole => rfl
  | rest _ h => exact (((h i).1 hidx).2.2.2 b hb hi).elim
  | target hs => exact ((hm.target _ _ _ hs).2 b hb i hidx hi).elim
  | header hh => exact ((hm.body b hb).1 _ hh i hidx hi).elim
  | name hh _ h => exact ((hm.body b hb).1 _ hh i ((h i).1 hidx).1 hi).elim
  | body hb' hc' => rw [hb] at hb'; cases hb'; rw [hc] at hc'; cases hc'
  | json hb' hc' h =>
    rw [hb] at hb'; cases hb'; rw [hc] at hc'; cases hc'
    exact (hni (jsonPart_subset hw h ((hm.body b hb).2 _ hc).2 i hidx)).elim

/-- **C74** Array elements cannot be withheld one by one: a committed part that holds a position of an array inside the
brackets holds the whole array. -/
theorem C74_array_whole (w : ArrayFrame) (s : RangeSet) (elems : Jsons) (i : Nat) (hi : ¬ i ∈ w s elems) (idx : RangeSet)
    (hp : JsonPart w (.array s elems) idx) (hidx : i ∈ idx) : idx = s := by
  cases hp with
  | array => rfl
  | brackets => exact (hi hidx).elim

end Tlsn.Sdk
