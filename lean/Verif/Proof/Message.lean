import Verif.Proof.Props

/-! # C133: messages about ranges

What a caller reads when a proof cannot be built. -/

namespace Tlsn.Message

/-! ## Model -/

/-- A decimal digit. -/
def digit (n : Nat) : Char := Char.ofNat (48 + n)

/-- `Display` of `usize`, from the standard library: decimal digits without leading zeros. -/
def decimal (n : Nat) : List Char :=
  if n < 10 then [digit n] else decimal (n / 10) ++ [digit (n % 10)]
termination_by n
decreasing_by omega

/-- crates/core/src/display.rs:9-12: one range, with a separator if it is not the last. -/
def fmtRange (stop : Nat) (r : Rng) : List Char :=
  decimal r.1 ++ ['.', '.'] ++ decimal r.2 ++ if r.2 < stop then [',', ' '] else []

/-- crates/core/src/display.rs:5-16 `Display for FmtRangeSet` -/
def fmtRangeSet (s : RangeSet) : List Char := ['{'] ++ s.ranges.flatMap (fmtRange (s.end.getD 0)) ++ ['}']

/-- crates/core/src/transcript.rs:446-453 `Display for Direction` -/
def fmtDirection : Direction → List Char
  | .sent => ['s', 'e', 'n', 't']
  | .received => ['r', 'e', 'c', 'e', 'i', 'v', 'e', 'd']

/-- crates/core/src/transcript/proof.rs:213-222 `Display for QueryIdx` -/
def fmtQuery (sent recv : RangeSet) : List Char :=
  ['s', 'e', 'n', 't', ':', ' '] ++ fmtRangeSet sent ++ [',', ' ', 'r', 'e', 'c', 'e', 'i', 'v', 'e', 'd', ':', ' '] ++ fmtRangeSet recv

/-- crates/core/src/transcript/proof.rs:472-491 `Display for TranscriptProofBuilderError`, before what depends on the error. -/
def fmtError : List Char := "transcript proof builder error: ".toList

/-- The text of the error that `reveal_inner` returns (crates/core/src/transcript/proof.rs:302-329 with 472-491), `none` if it
returns none. -/
def _root_.Tlsn.ProofBuilder.revealText (b : ProofBuilder) (idx : RangeSet) (d : Direction) : Option (List Char) :=
  match (b.reveal idx d).2 with
  | .ok () => none
  | .error .index => some (fmtError ++ "index error".toList ++ " caused by: ".toList ++ "range is out of bounds of the transcript (".toList ++
      fmtDirection d ++ "): ".toList ++ decimal (idx.end.getD 0) ++ " > ".toList ++ decimal (b.transcript.lenOfDirection d))
  | .error _ => some (fmtError ++ "commitment error".toList ++ " caused by: ".toList ++ "commitment is missing for ranges in ".toList ++
      fmtDirection d ++ " transcript: ".toList ++
      fmtRangeSet (idx.diff (match d with | .sent => b.committedSent | .received => b.committedRecv)))

/-- The text of the error that `build` returns (crates/core/src/transcript/proof.rs:419-426 with 450-458 and 472-491).  `debugKinds` is the
derived `Debug` of a vector of commitment kinds. -/
def _root_.Tlsn.ProofBuilder.buildText (debugKinds : List HashAlgId → List Char) (cover : CoverFn) (b : ProofBuilder) : Option (List Char) :=
  match b.build cover with
  | .err _ =>
    let res := coverLoop cover b.hashSecrets b.kinds b.querySent b.queryRecv []
    some (fmtError ++ "unable to cover the following ranges in transcript using available ".toList ++ debugKinds b.kinds ++
      " commitments: ".toList ++ fmtQuery res.1 res.2.1)
  | _ => none

/-! ## Reading -/

/-- What a text says: the number at its beginning. -/
def isDigit (c : Char) : Bool := decide (48 ≤ c.toNat ∧ c.toNat < 58)

/-- The value of digits. -/
def number (l : List Char) : Nat := l.foldl (fun a c => 10 * a + (c.toNat - 48)) 0

theorem digit_toNat {n : Nat} (h : n < 10) : (digit n).toNat = 48 + n := by
  revert n
  decide

theorem decimal_digits (n : Nat) : (∀ c ∈ decimal n, isDigit c = true) ∧ number (decimal n) = n := by
  induction n using Nat.strongRecOn with
  | _ n ih =>
    unfold decimal
    split
    · rename_i h
      simp only [List.mem_singleton, forall_eq, number, List.foldl_cons, List.foldl_nil, isDigit, digit_toNat h, decide_eq_true_eq]
      omega
    · have h10 : n % 10 < 10 := Nat.mod_lt _ (by omega)
      obtain ⟨h1, h2⟩ := ih (n / 10) (by omega)
      refine ⟨fun c hc => ?_, ?_⟩
      · rcases List.mem_append.1 hc with hc | hc
        · exact h1 c hc
        · rw [List.mem_singleton.1 hc, isDigit, digit_toNat h10, decide_eq_true_eq]
          omega
      · unfold number at h2 ⊢
        rw [List.foldl_append, h2, List.foldl_cons, List.foldl_nil, digit_toNat h10]
        omega

/-- A number before something that is no digit is read in one way. -/
theorem decimal_cancel {m n : Nat} {x y : List Char} (hx : ∀ c ∈ x.head?, isDigit c = false) (hy : ∀ c ∈ y.head?, isDigit c = false)
    (h : decimal m ++ x = decimal n ++ y) : m = n ∧ x = y := by
  have key : ∀ (a b : List Char), (∀ c ∈ a, isDigit c = true) → (∀ c ∈ b, isDigit c = true) → a ++ x = b ++ y → a = b := by
    intro a
    induction a with
    | nil =>
      intro b _ hb he
      cases b with
      | nil => rfl
      | cons c b =>
        rw [List.nil_append] at he
        subst he
        have h1 := hx c (by simp)
        rw [hb c (by simp)] at h1
        cases h1
    | cons c a ih =>
      intro b ha hb he
      cases b with
      | nil =>
        rw [List.nil_append] at he
        subst he
        have h1 := hy c (by simp)
        rw [ha c (by simp)] at h1
        cases h1
      | cons e b =>
        rw [List.cons_append, List.cons_append, List.cons.injEq] at he
        rw [he.1, ih b (fun c hc => ha c (List.mem_cons_of_mem _ hc)) (fun c hc => hb c (List.mem_cons_of_mem _ hc)) he.2]
  have e := key _ _ (decimal_digits m).1 (decimal_digits n).1 h
  have hmn : m = n := by rw [← (decimal_digits m).2, e, (decimal_digits n).2]
  subst hmn
  exact ⟨rfl, List.append_cancel_left h⟩

/-! ## Specification -/

/-- `a..b` -/
def rangeText (r : Rng) : List Char := decimal r.1 ++ ['.', '.'] ++ decimal r.2

/-- The ranges, separated by `, `. -/
def listed : List Rng → List Char
  | [] => []
  | [r] => rangeText r
  | r :: s :: l => rangeText r ++ [',', ' '] ++ listed (s :: l)

theorem getLast_end {r : Rng} {l : List Rng} (h : Canon (r :: l)) (hl : l ≠ []) (e : Rng) (he : (r :: l).getLast? = some e) : r.2 < e.2 := by
  induction l generalizing r with
  | nil => exact absurd rfl hl
  | cons s l ih =>
    rw [List.getLast?_cons_cons] at he
    have hs : Canon (s :: l) := h.tail
    have h1 : r.2 < s.1 := by unfold Canon at h; exact h.2.1
    have h2 := hs.head
    cases l with
    | nil =>
      simp only [List.getLast?_singleton, Option.some.injEq] at he
      subst he
      omega
    | cons t l =>
      have := ih hs (by simp) he
      omega

theorem flatMap_listed {l : List Rng} (h : Canon l) (stop : Nat) (hs : ∀ e, l.getLast? = some e → e.2 = stop) :
    l.flatMap (fmtRange stop) = listed l := by
  induction l with
  | nil => rfl
  | cons r l ih =>
    cases l with
    | nil =>
      have := hs r rfl
      simp [fmtRange, listed, rangeText, this]
    | cons s l =>
      have hlt : r.2 < stop := by
        cases he : (s :: l).getLast? with
        | none => simp at he
        | some e =>
          have he' : (r :: s :: l).getLast? = some e := by rw [List.getLast?_cons_cons]; exact he
          rw [← hs e he']
          exact getLast_end h (by simp) e he'
      rw [List.flatMap_cons, ih h.tail (fun e he => hs e (by rw [List.getLast?_cons_cons]; exact he)), fmtRange, if_pos hlt]
      simp [listed, rangeText]

theorem fmtRangeSet_eq (s : RangeSet) : fmtRangeSet s = ['{'] ++ listed s.ranges ++ ['}'] := by
  unfold fmtRangeSet
  rw [flatMap_listed s.canon]
  intro e he
  simp [RangeSet.end, he]

theorem rangeText_cancel {r s : Rng} {x y : List Char} (hx : ∀ c ∈ x.head?, isDigit c = false) (hy : ∀ c ∈ y.head?, isDigit c = false)
    (h : rangeText r ++ x = rangeText s ++ y) : r = s ∧ x = y := by
  unfold rangeText at h
  simp only [List.append_assoc] at h
  obtain ⟨h1, h2⟩ := decimal_cancel (by simp; decide) (by simp; decide) h
  obtain ⟨h3, h4⟩ := decimal_cancel hx hy (List.append_cancel_left h2)
  exact ⟨Prod.ext h1 h3, h4⟩

theorem rangeText_head (r : Rng) (x : List Char) : ∃ c t, rangeText r ++ x = c :: t ∧ isDigit c = true := by
  have : decimal r.1 ≠ [] := by unfold decimal; split <;> simp
  obtain ⟨c, t, h⟩ := List.exists_cons_of_ne_nil this
  refine ⟨c, t ++ ['.', '.'] ++ decimal r.2 ++ x, by simp [rangeText, h], (decimal_digits r.1).1 c (by rw [h]; simp)⟩

/-- A list of ranges with a closing brace is read in one way. -/
theorem listed_cancel {a b : List Rng} {x y : List Char} (h : listed a ++ '}' :: x = listed b ++ '}' :: y) : a = b ∧ x = y := by
  induction a generalizing b with
  | nil =>
    cases b with
    | nil => simpa [listed] using h
    | cons s b =>
      obtain ⟨c, t, e, hc⟩ : ∃ c t, listed (s :: b) ++ '}' :: y = c :: t ∧ isDigit c = true := by
        cases b with
        | nil => exact rangeText_head s _
        | cons s' b => simp only [listed, List.append_assoc]; exact rangeText_head s _
      rw [e] at h
      simp only [listed, List.nil_append, List.cons.injEq] at h
      rw [← h.1] at hc
      exact absurd hc (by decide)
  | cons r a ih =>
    cases b with
    | nil =>
      obtain ⟨c, t, e, hc⟩ : ∃ c t, listed (r :: a) ++ '}' :: x = c :: t ∧ isDigit c = true := by
        cases a with
        | nil => exact rangeText_head r _
        | cons s' b => simp only [listed, List.append_assoc]; exact rangeText_head r _
      rw [e] at h
      simp only [listed, List.nil_append, List.cons.injEq] at h
      rw [h.1] at hc
      exact absurd hc (by decide)
    | cons s b =>
      cases a with
      | nil =>
        cases b with
        | nil =>
          obtain ⟨e, h'⟩ := rangeText_cancel (by simp; decide) (by simp; decide) h
          exact ⟨by rw [e], (List.cons.inj h').2⟩
        | cons s' b =>
          simp only [listed, List.append_assoc] at h
          obtain ⟨-, h⟩ := rangeText_cancel (by simp; decide) (by simp; decide) h
          exact absurd (List.cons.inj h).1 (by decide)
      | cons r' a =>
        cases b with
        | nil =>
          simp only [listed, List.append_assoc] at h
          obtain ⟨-, h⟩ := rangeText_cancel (by simp; decide) (by simp; decide) h
          exact absurd (List.cons.inj h).1 (by decide)
        | cons s' b =>
          simp only [listed, List.append_assoc] at h
          obtain ⟨e, h'⟩ := rangeText_cancel (by simp; decide) (by simp; decide) h
          obtain ⟨h1, h2⟩ := ih (List.append_cancel_left h')
          exact ⟨by rw [e, h1], h2⟩

theorem fmtRangeSet_cancel {s t : RangeSet} {x y : List Char} (h : fmtRangeSet s ++ x = fmtRangeSet t ++ y) : s = t ∧ x = y := by
  rw [fmtRangeSet_eq, fmtRangeSet_eq] at h
  simp only [List.append_assoc, List.cons_append, List.nil_append, List.cons.injEq, true_and] at h
  obtain ⟨h1, h2⟩ := listed_cancel h
  refine ⟨?_, h2⟩
  cases s; cases t
  cases h1
  rfl

/-! ## Properties -/

/-- C133: the text of a set of positions is the list of its maximal ranges `a..b` in order, in braces, and no other set has this text. -/
theorem C133_text (s : RangeSet) :
    fmtRangeSet s = ['{'] ++ listed s.ranges ++ ['}'] ∧ ∀ t, fmtRangeSet t = fmtRangeSet s → ∀ i, i ∈ t ↔ i ∈ s := by
  refine ⟨fmtRangeSet_eq s, fun t h i => ?_⟩
  obtain ⟨rfl, -⟩ := fmtRangeSet_cancel (x := []) (y := []) (by simpa using h)
  exact Iff.rfl

/-- C133: after every history of calls, if a position that was asked for is not committed (and all are in the transcript), then the error
names the direction and exactly the positions that were asked for and are in no commitment; a caller can read both from the
text, since the text for another direction or another set is different. -/
theorem C133_missing (t : Transcript) (secrets : List PlaintextHashSecret) (ops : List BuilderOp) (idx : RangeSet) (d : Direction)
    (hin : ∀ i ∈ idx, i < (t.data d).length) (hmiss : ∃ i ∈ idx, ∀ s ∈ secrets, s.direction = d → ¬ i ∈ s.idx) :
    ∃ missing : RangeSet, (∀ i, i ∈ missing ↔ i ∈ idx ∧ ∀ s ∈ secrets, s.direction = d → ¬ i ∈ s.idx) ∧
      (runBuilder t secrets ops).revealText idx d = some
        ("transcript proof builder error: ".toList ++ "commitment error".toList ++ " caused by: ".toList ++
          "commitment is missing for ranges in ".toList ++ fmtDirection d ++ " transcript: ".toList ++ fmtRangeSet missing) ∧
      ∀ (t' : Transcript) (secrets' : List PlaintextHashSecret) (ops' : List BuilderOp) (idx' : RangeSet) (d' : Direction),
        (∀ i ∈ idx', i < (t'.data d').length) → (runBuilder t' secrets' ops').revealText idx' d' = (runBuilder t secrets ops).revealText idx d →
        d' = d ∧ ∀ i, i ∈ missing ↔ i ∈ idx' ∧ ∀ s ∈ secrets', s.direction = d' → ¬ i ∈ s.idx := by
  have key : ∀ (t : Transcript) (secrets : List PlaintextHashSecret) (ops : List BuilderOp) (idx : RangeSet) (d : Direction),
      (∀ i ∈ idx, i < (t.data d).length) → (∃ i ∈ idx, ∀ s ∈ secrets, s.direction = d → ¬ i ∈ s.idx) →
      ∃ missing : RangeSet, (∀ i, i ∈ missing ↔ i ∈ idx ∧ ∀ s ∈ secrets, s.direction = d → ¬ i ∈ s.idx) ∧
        (runBuilder t secrets ops).revealText idx d = some (fmtError ++ "commitment error".toList ++ " caused by: ".toList ++
          "commitment is missing for ranges in ".toList ++ fmtDirection d ++ " transcript: ".toList ++ fmtRangeSet missing) := by
    intro t secrets ops idx d hin ⟨i0, hi0, hno⟩
    have herr := (C13_reveal t secrets ops idx d).2.2 hin (fun hr => by
      obtain ⟨s, hs, hd, hm⟩ := hr.2 i0 hi0
      exact hno s hs hd hm)
    obtain ⟨-, -, h3, h4⟩ := runBuilder_const t secrets ops
    refine ⟨idx.diff (bySide (runBuilder t secrets ops).committedSent (runBuilder t secrets ops).committedRecv d),
      fun i => ?_, by unfold ProofBuilder.revealText; rw [herr]; cases d <;> rfl⟩
    rw [RangeSet.mem_diff]
    refine and_congr_right fun _ => ?_
    cases d with
    | sent => simp only [bySide, h3]; exact ⟨fun h s hs hd hm => h ⟨s, hs, hd, hm⟩, fun h ⟨s, hs, hd, hm⟩ => h s hs hd hm⟩
    | received => simp only [bySide, h4]; exact ⟨fun h s hs hd hm => h ⟨s, hs, hd, hm⟩, fun h ⟨s, hs, hd, hm⟩ => h s hs hd hm⟩
  obtain ⟨missing, hm, ht⟩ := key t secrets ops idx d hin hmiss
  refine ⟨missing, hm, ht, fun t' secrets' ops' idx' d' hin' heq => ?_⟩
  by_cases hmiss' : ∃ i ∈ idx', ∀ s ∈ secrets', s.direction = d' → ¬ i ∈ s.idx
  · obtain ⟨missing', hm', ht'⟩ := key t' secrets' ops' idx' d' hin' hmiss'
    rw [ht, ht'] at heq
    have heq := Option.some.inj heq
    simp only [List.append_assoc] at heq
    replace heq := List.append_cancel_left (List.append_cancel_left (List.append_cancel_left (List.append_cancel_left heq)))
    have hd : d' = d := by
      cases d <;> cases d' <;> first | rfl | (exact absurd (List.cons.inj heq).1 (by decide))
    subst hd
    replace heq := List.append_cancel_left (List.append_cancel_left heq)
    obtain ⟨rfl, -⟩ := fmtRangeSet_cancel (x := []) (y := []) (by simpa using heq)
    exact ⟨rfl, hm'⟩
  · have hok := ((C13_reveal t' secrets' ops' idx' d').1 ⟨hin', fun i hi => by
      by_contra hn
      exact hmiss' ⟨i, hi, fun s hs hd hm => hn ⟨s, hs, hd, hm⟩⟩⟩).1
    have : (runBuilder t' secrets' ops').revealText idx' d' = none := by unfold ProofBuilder.revealText; rw [hok]
    rw [this, ht] at heq
    cases heq

/-- C133: after every history of calls, if a position that was asked for is outside of the transcript, then the error says so, with the
direction, the position after the last one that was asked for, and the length of the transcript, in this order. -/
theorem C133_outside (t : Transcript) (secrets : List PlaintextHashSecret) (ops : List BuilderOp) (idx : RangeSet) (d : Direction)
    (hout : ∃ i ∈ idx, (t.data d).length ≤ i) :
    ∃ last, last ∈ idx ∧ (∀ i ∈ idx, i ≤ last) ∧
      (runBuilder t secrets ops).revealText idx d = some
        ("transcript proof builder error: ".toList ++ "index error".toList ++ " caused by: ".toList ++
          "range is out of bounds of the transcript (".toList ++ fmtDirection d ++ "): ".toList ++ decimal (last + 1) ++ " > ".toList ++
          decimal (t.data d).length) := by
  have herr := (C13_reveal t secrets ops idx d).2.1 hout
  obtain ⟨h1, -⟩ := runBuilder_const t secrets ops
  obtain ⟨i0, hi0, -⟩ := hout
  have hpos := RangeSet.mem_lt_endD hi0
  refine ⟨idx.endD - 1, RangeSet.endD_eq_succ (by omega), fun i hi => ?_, ?_⟩
  · have := RangeSet.mem_lt_endD hi
    omega
  · have he : idx.end.getD 0 = idx.endD - 1 + 1 := by
      show idx.endD = _
      omega
    unfold ProofBuilder.revealText
    rw [herr, he, h1]
    cases d <;> rfl

/-- What the loop leaves is in no candidate that it could have taken. -/
theorem coverLoop_none {cover : CoverFn} (hc : CoverContract cover) (secrets : List PlaintextHashSecret) (k : HashAlgId) (ks : List HashAlgId)
    (us ur : RangeSet) (acc : List PlaintextHashSecret) (s : PlaintextHashSecret) (hs : s ∈ secrets) (hk : s.alg = k)
    (hin : s.idx ⊆ bySide us ur s.direction) :
    ∀ i ∈ s.idx, ¬ i ∈ coverRest (coverLoop cover secrets (k :: ks) us ur acc) s.direction := by
  intro i hi hr
  unfold coverLoop at hr
  split at hr
  · rename_i he
    rw [Bool.and_eq_true, RangeSet.isEmpty_iff, RangeSet.isEmpty_iff] at he
    cases hd : s.direction <;> rw [hd] at hr
    · exact he.1 i hr
    · exact he.2 i hr
  · have h4 := (coverLoop_inv hc secrets ks _ _ _).2.2.2 _ i hr
    cases hd : s.direction <;> rw [hd] at h4 hin
    · exact hc.maximal us _ i h4 s (List.mem_filter.2 ⟨hs, by simp [hd, hk]⟩) hin hi
    · exact hc.maximal ur _ i h4 s (List.mem_filter.2 ⟨hs, by simp [hd, hk]⟩) hin hi

theorem coverLoop_rest {cover : CoverFn} (hc : CoverContract cover) (secrets : List PlaintextHashSecret) (ks : List HashAlgId)
    (us ur : RangeSet) (acc : List PlaintextHashSecret) (s : PlaintextHashSecret) (hs : s ∈ secrets) (hk : s.alg ∈ ks)
    (hin : s.idx ⊆ coverRest (coverLoop cover secrets ks us ur acc) s.direction) : ∀ i, ¬ i ∈ s.idx := by
  induction ks generalizing us ur acc with
  | nil => cases hk
  | cons k ks ih =>
    intro i hi
    rcases List.mem_cons.1 hk with hk | hk
    · exact coverLoop_none hc secrets k ks us ur acc s hs hk
        (fun j hj => (coverLoop_inv hc secrets (k :: ks) us ur acc).2.2.2 _ j (hin j hj)) i hi (hin i hi)
    · unfold coverLoop at hin
      split at hin
      · rename_i he
        rw [Bool.and_eq_true, RangeSet.isEmpty_iff, RangeSet.isEmpty_iff] at he
        have := hin i hi
        cases hd : s.direction <;> rw [hd] at this
        · exact he.1 i this
        · exact he.2 i this
      · exact ih _ _ _ hk hin i hi

/-- C133: if `build` fails, then the text names for each direction a set of positions that were asked for, at least one in all, and every position that was asked
for and that it does not name lies in a commitment of one of the accepted kinds inside of what was asked for.  No position that it
names lies in a commitment of the preferred kind inside of what was asked for, and no commitment of an accepted kind lies
inside of what it names.  The sets can be read from the text. -/
theorem C133_cover (debugKinds : List HashAlgId → List Char) (cover : CoverFn) (hc : CoverContract cover) (t : Transcript)
    (secrets : List PlaintextHashSecret) (ops : List BuilderOp) (e : BuilderError)
    (h : (runBuilder t secrets ops).build cover = .err e) :
    ∃ uncovered : Direction → RangeSet,
      (runBuilder t secrets ops).buildText debugKinds cover = some ("transcript proof builder error: ".toList ++
        "unable to cover the following ranges in transcript using available ".toList ++ debugKinds (runBuilder t secrets ops).kinds ++
        " commitments: ".toList ++ fmtQuery (uncovered .sent) (uncovered .received)) ∧
      (∃ d i, i ∈ uncovered d) ∧
      (∀ d i, i ∈ uncovered d → i ∈ (runBuilder t secrets ops).query d) ∧
      (∀ d i, i ∈ (runBuilder t secrets ops).query d → ¬ i ∈ uncovered d → ∃ s ∈ secrets, s.direction = d ∧ i ∈ s.idx ∧
        s.alg ∈ (runBuilder t secrets ops).kinds ∧ ∀ j ∈ s.idx, j ∈ (runBuilder t secrets ops).query d) ∧
      (∀ s ∈ secrets, (runBuilder t secrets ops).kinds.head? = some s.alg → (∀ j ∈ s.idx, j ∈ (runBuilder t secrets ops).query s.direction) →
        ∀ i ∈ s.idx, ¬ i ∈ uncovered s.direction) ∧
      (∀ s ∈ secrets, s.alg ∈ (runBuilder t secrets ops).kinds → (∀ j ∈ s.idx, j ∈ uncovered s.direction) → ∀ i, ¬ i ∈ s.idx) ∧
      ∀ a b : RangeSet, fmtQuery a b = fmtQuery (uncovered .sent) (uncovered .received) → a = uncovered .sent ∧ b = uncovered .received := by
  obtain ⟨-, h2, -, -⟩ := runBuilder_const t secrets ops
  generalize runBuilder t secrets ops = b at *
  subst h2
  obtain ⟨i1, -, i3, i4⟩ := coverLoop_inv hc b.hashSecrets b.kinds b.querySent b.queryRecv []
  have hq : ∀ d, b.query d = bySide b.querySent b.queryRecv d := fun d => by cases d <;> rfl
  refine ⟨coverRest (coverLoop cover b.hashSecrets b.kinds b.querySent b.queryRecv []), ?_, ?_, ?_, ?_, ?_, ?_, ?_⟩
  · rw [ProofBuilder.buildText, h]
    rfl
  · unfold ProofBuilder.build at h
    cases hp : b.transcript.toPartial b.querySent b.queryRecv with
    | none => rw [hp] at h; cases h
    | some p =>
      rw [hp] at h
      simp only at h
      split at h
      · cases h
      · rename_i hne
        by_contra hn
        push Not at hn
        refine hne ?_
        rw [Bool.and_eq_true, RangeSet.isEmpty_iff, RangeSet.isEmpty_iff]
        exact ⟨fun i => hn .sent i, fun i => hn .received i⟩
  · intro d i hi
    rw [hq]
    exact i4 d i hi
  · intro d i hi hn
    rw [hq] at hi
    rcases i3 d i hi with h' | ⟨s, hs, rfl, hm⟩
    · exact absurd h' hn
    · rcases i1 s hs with h' | ⟨h1, h2, h3⟩
      · cases h'
      · refine ⟨s, h1, rfl, hm, h2, fun j hj => ?_⟩
        rw [hq]
        exact h3 j hj
  · intro s hs hk hin
    cases hks : b.kinds with
    | nil => rw [hks] at hk; cases hk
    | cons k ks =>
      rw [hks] at hk
      simp only [List.head?_cons, Option.some.injEq] at hk
      exact coverLoop_none hc b.hashSecrets k ks b.querySent b.queryRecv [] s hs hk.symm (fun j hj => by rw [← hq]; exact hin j hj)
  · exact fun s hs hk hin => coverLoop_rest hc b.hashSecrets b.kinds b.querySent b.queryRecv [] s hs hk hin
  · intro x y he
    unfold fmtQuery at he
    simp only [List.append_assoc] at he
    obtain ⟨rfl, he⟩ := fmtRangeSet_cancel (List.append_cancel_left he)
    obtain ⟨rfl, -⟩ := fmtRangeSet_cancel (x := []) (y := []) (by simpa using List.append_cancel_left he)
    exact ⟨rfl, rfl⟩

/-- Two bytes are asked for and one of them is committed. -/
example : (runBuilder ⟨[1, 2, 3], []⟩ [⟨.sent, RangeSet.ofRange 1 2, .sha256, .replicate 16 0⟩] []).revealText (RangeSet.ofRange 0 3) .sent =
    some (fmtError ++ "commitment error".toList ++ " caused by: ".toList ++ "commitment is missing for ranges in ".toList ++
      ['s', 'e', 'n', 't'] ++ " transcript: ".toList ++ ['{', '0', '.', '.', '1', ',', ' ', '2', '.', '.', '3', '}']) := by
  decide +kernel

/-- The third byte and two more are asked for, of three. -/
example : (runBuilder ⟨[1, 2, 3], []⟩ [] []).revealText (RangeSet.ofRange 2 5) .sent =
    some (fmtError ++ "index error".toList ++ " caused by: ".toList ++ "range is out of bounds of the transcript (".toList ++
      ['s', 'e', 'n', 't'] ++ "): ".toList ++ ['5'] ++ " > ".toList ++ ['3']) := by
  decide +kernel

/-- The third byte is in a commitment that does not fit: building fails, and the text names it. -/
example : (runBuilder ⟨[1, 2, 3], []⟩ exSecrets [.reveal (RangeSet.ofRange 0 3) .sent]).build greedyCover = .err .cover ∧
    CoverContract greedyCover ∧
    (runBuilder ⟨[1, 2, 3], []⟩ exSecrets [.reveal (RangeSet.ofRange 0 3) .sent]).buildText (fun _ => ['k']) greedyCover =
      some (fmtError ++ "unable to cover the following ranges in transcript using available ".toList ++ ['k'] ++ " commitments: ".toList ++
        ['s', 'e', 'n', 't', ':', ' ', '{', '2', '.', '.', '3', '}', ',', ' ', 'r', 'e', 'c', 'e', 'i', 'v', 'e', 'd', ':', ' ', '{', '}']) := by
  exact ⟨by decide +kernel, greedyCover_contract, by decide +kernel⟩

end Tlsn.Message
