import Verif.Proof.Model
import Verif.Transcript.Props

namespace Tlsn

/-! ### verification loop -/

/-- A single secret is an opening of one of the commitments for the bytes shown in `t`. -/
def Opens (provider : HashProvider) (commitments : List PlaintextHash) (t : PartialTranscript)
    (s : PlaintextHashSecret) : Prop :=
  ∃ h msg, provider s.alg = some h ∧ gather (t.data s.direction) s.idx.ranges = some msg ∧
    (⟨s.direction, s.idx, hashPlaintext h msg s.blinder⟩ : PlaintextHash) ∈ commitments

theorem verifySecret_ok {provider : HashProvider} {cs : List PlaintextHash} {t : PartialTranscript}
    {acc acc' : RangeSet × RangeSet} {s : PlaintextHashSecret} :
    verifySecret provider cs t acc s = .ok acc' ↔
      Opens provider cs t s ∧
        acc' = addIdx acc s := by
  unfold verifySecret Opens
  cases hp : provider s.alg with
  | none => simp
  | some h =>
    by_cases hb : s.idx.endD > (t.data s.direction).length
    · simp only [hb, if_true]
      constructor
      · intro h; simp at h
      · rintro ⟨⟨_, msg, _, hg, _⟩, _⟩
        have := RangeSet.endD_le_of_inBounds (gather_inBounds hg)
        omega
    · simp only [hb, if_false]
      cases hg : gather (t.data s.direction) s.idx.ranges with
      | none => simp
      | some msg =>
        by_cases hm : (⟨s.direction, s.idx, hashPlaintext h msg s.blinder⟩ : PlaintextHash) ∈ cs
        · simp only
          rw [if_pos hm]
          constructor
          · intro e; simp only [Outcome.ok.injEq] at e
            exact ⟨⟨h, msg, rfl, rfl, hm⟩, e.symm⟩
          · rintro ⟨_, rfl⟩; rfl
        · simp only
          rw [if_neg hm]
          constructor
          · intro e; simp at e
          · rintro ⟨⟨h', msg', e1, e2, hm'⟩, _⟩
            cases e1; cases e2; exact absurd hm' hm

theorem verifySecret_no_panic (provider : HashProvider) (cs : List PlaintextHash)
    (t : PartialTranscript) (acc : RangeSet × RangeSet) (s : PlaintextHashSecret) :
    verifySecret provider cs t acc s ≠ .panic := by
  unfold verifySecret
  split
  · simp
  · simp only
    split
    · simp
    · rename_i hb
      obtain ⟨b, hb⟩ := gather_isSome (data := t.data s.direction) (RangeSet.inBounds
        (Nat.le_of_not_lt hb))
      simp only [hb]
      split <;> simp

theorem mem_addIdx {acc : RangeSet × RangeSet} {s : PlaintextHashSecret} {i : Nat} :
    (i ∈ (addIdx acc s).1 ↔ i ∈ acc.1 ∨ (s.direction = .sent ∧ i ∈ s.idx)) ∧
    (i ∈ (addIdx acc s).2 ↔ i ∈ acc.2 ∨ (s.direction = .received ∧ i ∈ s.idx)) := by
  unfold addIdx
  split <;> rename_i h <;> simp [h]

theorem verifySecrets_no_panic (provider : HashProvider) (cs : List PlaintextHash)
    (t : PartialTranscript) (acc : RangeSet × RangeSet) (ss : List PlaintextHashSecret) :
    verifySecrets provider cs t acc ss ≠ .panic := by
  induction ss generalizing acc with
  | nil => simp [verifySecrets]
  | cons s ss ih =>
    simp only [verifySecrets]
    cases h : verifySecret provider cs t acc s with
    | ok a => simpa using ih a
    | err e => simp
    | panic => exact absurd h (verifySecret_no_panic _ _ _ _ _)

/-- The accumulated sets after a run of the loop. -/
theorem verifySecrets_ok {provider : HashProvider} {cs : List PlaintextHash} {t : PartialTranscript}
    {acc acc' : RangeSet × RangeSet} {ss : List PlaintextHashSecret} :
    verifySecrets provider cs t acc ss = .ok acc' ↔
      (∀ s ∈ ss, Opens provider cs t s) ∧
      (∀ i, i ∈ acc'.1 ↔ i ∈ acc.1 ∨ ∃ s ∈ ss, s.direction = .sent ∧ i ∈ s.idx) ∧
      (∀ i, i ∈ acc'.2 ↔ i ∈ acc.2 ∨ ∃ s ∈ ss, s.direction = .received ∧ i ∈ s.idx) := by
  induction ss generalizing acc with
  | nil =>
    simp only [verifySecrets, Outcome.ok.injEq, List.not_mem_nil, false_implies, implies_true,
      false_and, exists_false, or_false, true_and]
    constructor
    · rintro rfl; simp
    · rintro ⟨h1, h2⟩
      exact Prod.ext (RangeSet.ext fun i => (h1 i).symm) (RangeSet.ext fun i => (h2 i).symm)
  | cons s ss ih =>
    simp only [verifySecrets, Outcome.bind_eq_ok]
    constructor
    · rintro ⟨a, ha, hrest⟩
      obtain ⟨ho, rfl⟩ := verifySecret_ok.1 ha
      obtain ⟨h1, h2, h3⟩ := ih.1 hrest
      refine ⟨?_, ?_, ?_⟩
      · intro x hx
        rcases List.mem_cons.1 hx with rfl | hx
        · exact ho
        · exact h1 x hx
      · intro i; rw [h2 i]; simp [mem_addIdx, or_assoc]
      · intro i; rw [h3 i]; simp [mem_addIdx, or_assoc]
    · rintro ⟨h1, h2, h3⟩
      refine ⟨_, verifySecret_ok.2 ⟨h1 s (by simp), rfl⟩, ?_⟩
      rw [ih]
      refine ⟨fun x hx => h1 x (by simp [hx]), ?_, ?_⟩
      · intro i; rw [h2 i]; simp [mem_addIdx, or_assoc]
      · intro i; rw [h3 i]; simp [mem_addIdx, or_assoc]

theorem verify_ok {p : TranscriptProof} {provider : HashProvider} {length : TranscriptLength}
    {cs : List PlaintextHash} {t : PartialTranscript} :
    p.verify provider length cs = .ok t ↔
      t = p.transcript ∧ t.sent.length = length.sent ∧ t.received.length = length.received ∧
      (∀ s ∈ p.hashSecrets, Opens provider cs t s) ∧
      ∀ d i, i ∈ t.authed d ↔ ∃ s ∈ p.hashSecrets, s.direction = d ∧ i ∈ s.idx := by
  unfold TranscriptProof.verify
  by_cases hl : p.transcript.sent.length ≠ length.sent ∨
      p.transcript.received.length ≠ length.received
  · rw [if_pos hl]
    constructor
    · intro h; simp at h
    · rintro ⟨rfl, h1, h2, _⟩
      rcases hl with hl | hl
      · exact absurd h1 hl
      · exact absurd h2 hl
  · rw [if_neg hl]
    rw [not_or] at hl
    simp only [ne_eq, Classical.not_not] at hl
    rw [Outcome.bind_eq_ok]
    constructor
    · rintro ⟨a, ha, h⟩
      split at h
      · simp at h
      · rename_i he
        rw [not_or] at he
        simp only [Classical.not_not] at he
        simp only [Outcome.ok.injEq] at h; subst h
        obtain ⟨h1, h2, h3⟩ := verifySecrets_ok.1 ha
        refine ⟨rfl, hl.1, hl.2, h1, ?_⟩
        rintro (_ | _) i
        · show i ∈ p.transcript.sentAuthed ↔ _
          rw [← he.1, h2 i]; simp
        · show i ∈ p.transcript.receivedAuthed ↔ _
          rw [← he.2, h3 i]; simp
    · rintro ⟨rfl, h1, h2, h3, h4⟩
      refine ⟨(p.transcript.sentAuthed, p.transcript.receivedAuthed), ?_, ?_⟩
      · rw [verifySecrets_ok]
        refine ⟨h3, ?_, ?_⟩
        · intro i; simpa [PartialTranscript.authed] using h4 .sent i
        · intro i; simpa [PartialTranscript.authed] using h4 .received i
      · simp

/-! ### builder -/

theorem committedIdx_mem (ss : List PlaintextHashSecret) (acc : RangeSet × RangeSet) :
    (∀ i, i ∈ (committedIdx ss acc).1 ↔ i ∈ acc.1 ∨ ∃ s ∈ ss, s.direction = .sent ∧ i ∈ s.idx) ∧
    (∀ i, i ∈ (committedIdx ss acc).2 ↔
      i ∈ acc.2 ∨ ∃ s ∈ ss, s.direction = .received ∧ i ∈ s.idx) := by
  induction ss generalizing acc with
  | nil => simp [committedIdx]
  | cons s ss ih =>
    simp only [committedIdx]
    constructor
    · intro i
      rw [(ih _).1 i]
      simp [mem_addIdx, or_assoc]
    · intro i
      rw [(ih _).2 i]
      simp [mem_addIdx, or_assoc]

/-- Uncovered sets of the loop, selected as a function of direction. -/
def coverRest (res : RangeSet × RangeSet × List PlaintextHashSecret) : Direction → RangeSet
  | .sent => res.1
  | .received => res.2.1

theorem coverLoop_inv {cover : CoverFn} (hc : CoverContract cover)
    (secrets : List PlaintextHashSecret) (ks : List HashAlgId) (us ur : RangeSet)
    (acc : List PlaintextHashSecret) :
    let res := coverLoop cover secrets ks us ur acc
    (∀ s ∈ res.2.2, s ∈ acc ∨ (s ∈ secrets ∧ s.alg ∈ ks ∧ s.idx ⊆ bySide us ur s.direction)) ∧
    (∀ s ∈ acc, s ∈ res.2.2) ∧
    (∀ d i, i ∈ bySide us ur d →
      i ∈ coverRest res d ∨ ∃ s ∈ res.2.2, s.direction = d ∧ i ∈ s.idx) ∧
    (∀ d i, i ∈ coverRest res d → i ∈ bySide us ur d) := by
  induction ks generalizing us ur acc with
  | nil =>
    refine ⟨fun s hs => .inl hs, fun s hs => hs, ?_, ?_⟩
    · rintro (_ | _) i hi <;> exact .inl hi
    · rintro (_ | _) i hi <;> exact hi
  | cons k ks ih =>
    simp only [coverLoop]
    split
    · refine ⟨fun s hs => .inl hs, fun s hs => hs, ?_, ?_⟩
      · rintro (_ | _) i hi <;> exact .inl hi
      · rintro (_ | _) i hi <;> exact hi
    · generalize hS : cover us (secrets.filter fun h => h.direction = .sent ∧ h.alg = k) = S
      generalize hR : cover ur (secrets.filter fun h => h.direction = .received ∧ h.alg = k) = R
      obtain ⟨i1, i2, i3, i4⟩ := ih S.2 R.2 (acc ++ S.1 ++ R.1)
      have restS : ∀ i, i ∈ S.2 ↔ i ∈ us ∧ ∀ s ∈ S.1, ¬ i ∈ s.idx := by
        rw [← hS]; exact hc.rest _ _
      have restR : ∀ i, i ∈ R.2 ↔ i ∈ ur ∧ ∀ s ∈ R.1, ¬ i ∈ s.idx := by
        rw [← hR]; exact hc.rest _ _
      have memS : ∀ s ∈ S.1, s ∈ secrets ∧ s.direction = .sent ∧ s.alg = k ∧ s.idx ⊆ us := by
        intro s hs
        rw [← hS] at hs
        have := hc.mem _ _ s hs
        simp only [List.mem_filter, decide_eq_true_eq] at this
        exact ⟨this.1.1, this.1.2.1, this.1.2.2, this.2⟩
      have memR : ∀ s ∈ R.1, s ∈ secrets ∧ s.direction = .received ∧ s.alg = k ∧ s.idx ⊆ ur := by
        intro s hs
        rw [← hR] at hs
        have := hc.mem _ _ s hs
        simp only [List.mem_filter, decide_eq_true_eq] at this
        exact ⟨this.1.1, this.1.2.1, this.1.2.2, this.2⟩
      refine ⟨?_, ?_, ?_, ?_⟩
      · intro s hs
        rcases i1 s hs with h | ⟨h1, h2, h3⟩
        · rcases List.mem_append.1 h with h | h
          · rcases List.mem_append.1 h with h | h
            · exact .inl h
            · obtain ⟨a, b, c, e⟩ := memS s h
              exact .inr ⟨a, by simp [c], by rw [b]; exact e⟩
          · obtain ⟨a, b, c, e⟩ := memR s h
            exact .inr ⟨a, by simp [c], by rw [b]; exact e⟩
        · refine .inr ⟨h1, by simp [h2], ?_⟩
          intro i hi
          have := h3 i hi
          cases hd : s.direction
          · rw [hd] at this; exact ((restS i).1 this).1
          · rw [hd] at this; exact ((restR i).1 this).1
      · intro s hs; exact i2 s (by simp [hs])
      · rintro (_ | _) i hi
        · by_cases h : i ∈ S.2
          · exact i3 .sent i h
          · right
            rw [restS i] at h
            have : ∃ s ∈ S.1, i ∈ s.idx := by
              refine Classical.byContradiction fun hn => h ⟨hi, fun s hs hm => hn ⟨s, hs, hm⟩⟩
            obtain ⟨s, hs, hm⟩ := this
            exact ⟨s, i2 s (by simp [hs]), (memS s hs).2.1, hm⟩
        · by_cases h : i ∈ R.2
          · exact i3 .received i h
          · right
            rw [restR i] at h
            have : ∃ s ∈ R.1, i ∈ s.idx := by
              refine Classical.byContradiction fun hn => h ⟨hi, fun s hs hm => hn ⟨s, hs, hm⟩⟩
            obtain ⟨s, hs, hm⟩ := this
            exact ⟨s, i2 s (by simp [hs]), (memR s hs).2.1, hm⟩
      · rintro (_ | _) i hi
        · exact ((restS i).1 (i4 .sent i hi)).1
        · exact ((restR i).1 (i4 .received i hi)).1

/-! ### the greedy cover meets the contract -/

abbrev bestStep (u : RangeSet) (best : Option (PlaintextHashSecret × Nat)) (s : PlaintextHashSecret) :
    Option (PlaintextHashSecret × Nat) :=
  let g := (s.idx.inter u).len
  match best with
  | none => if g > 0 then some (s, g) else none
  | some (b, k) => if g ≥ k then some (s, g) else some (b, k)

theorem len_pos_iff {s : RangeSet} : 0 < s.len ↔ ∃ i, i ∈ s := by
  rw [← s.values_length, List.length_pos_iff_exists_mem]
  simp [RangeSet.mem_values]

theorem bestStep_none (u : RangeSet) (cs : List PlaintextHashSecret)
    (b : Option (PlaintextHashSecret × Nat)) (h : cs.foldl (bestStep u) b = none) :
    b = none ∧ ∀ s ∈ cs, ∀ i, i ∈ s.idx → ¬ i ∈ u := by
  induction cs generalizing b with
  | nil => exact ⟨h, by simp⟩
  | cons s cs ih =>
    obtain ⟨h1, h2⟩ := ih _ h
    cases b with
    | some x => simp only [bestStep] at h1; split at h1 <;> simp at h1
    | none =>
      simp only [bestStep] at h1
      split at h1
      · simp at h1
      · rename_i hg
        refine ⟨rfl, ?_⟩
        intro x hx i hi hu
        rcases List.mem_cons.1 hx with rfl | hx
        · exact hg (len_pos_iff.2 ⟨i, RangeSet.mem_inter.2 ⟨hi, hu⟩⟩)
        · exact h2 x hx i hi hu

theorem bestStep_some (u : RangeSet) (cs : List PlaintextHashSecret)
    (b : Option (PlaintextHashSecret × Nat)) (x : PlaintextHashSecret × Nat)
    (hb : ∀ y, b = some y → 0 < y.2 ∧ y.2 = (y.1.idx.inter u).len)
    (h : cs.foldl (bestStep u) b = some x) :
    (b = some x ∨ x.1 ∈ cs) ∧ 0 < x.2 ∧ x.2 = (x.1.idx.inter u).len := by
  induction cs generalizing b with
  | nil => exact ⟨.inl h, hb x h⟩
  | cons s cs ih =>
    have hb' : ∀ y, bestStep u b s = some y → 0 < y.2 ∧ y.2 = (y.1.idx.inter u).len := by
      intro y hy
      cases b with
      | none =>
        simp only [bestStep] at hy; split at hy
        · rename_i hg; simp only [Option.some.injEq] at hy; subst hy; exact ⟨hg, rfl⟩
        · simp at hy
      | some z =>
        have := hb z rfl
        simp only [bestStep] at hy; split at hy
        · rename_i hg; simp only [Option.some.injEq] at hy; subst hy
          exact ⟨Nat.lt_of_lt_of_le this.1 hg, rfl⟩
        · simp only [Option.some.injEq] at hy; subst hy; exact this
    obtain ⟨h1, h2⟩ := ih _ hb' h
    refine ⟨?_, h2⟩
    rcases h1 with h1 | h1
    · cases b with
      | none =>
        simp only [bestStep] at h1; split at h1
        · simp only [Option.some.injEq] at h1; subst h1; simp
        · simp at h1
      | some z =>
        simp only [bestStep] at h1; split at h1
        · simp only [Option.some.injEq] at h1; subst h1; simp
        · left; exact h1
    · right; simp [h1]

/-- Number of candidates that still cover something. -/
def useful (cs : List PlaintextHashSecret) (u : RangeSet) : Nat :=
  cs.countP fun s => decide (0 < (s.idx.inter u).len)

theorem greedyRounds_spec (cs : List PlaintextHashSecret) (n : Nat) (u : RangeSet)
    (hn : useful cs u ≤ n) :
    (∀ s ∈ (greedyRounds cs n u).1, s ∈ cs) ∧
    (∀ i, i ∈ (greedyRounds cs n u).2 ↔
      i ∈ u ∧ ∀ s ∈ (greedyRounds cs n u).1, ¬ i ∈ s.idx) ∧
    (∀ i, i ∈ (greedyRounds cs n u).2 → ∀ s ∈ cs, ¬ i ∈ s.idx) := by
  induction n generalizing u with
  | zero =>
    simp only [greedyRounds, List.not_mem_nil, false_implies, implies_true, and_true, true_and]
    intro i hi s hs hm
    have : 0 < useful cs u := by
      unfold useful
      rw [List.countP_pos_iff]
      exact ⟨s, hs, by simpa using len_pos_iff.2 ⟨i, RangeSet.mem_inter.2 ⟨hm, hi⟩⟩⟩
    omega
  | succ n ih =>
    have e : greedyRounds cs (n + 1) u = match cs.foldl (bestStep u) none with
      | none => ([], u)
      | some (s, _) => (s :: (greedyRounds cs n (u.diff s.idx)).1,
          (greedyRounds cs n (u.diff s.idx)).2) := rfl
    rw [e]
    split
    · rename_i heq
      obtain ⟨_, h⟩ := bestStep_none u cs none heq
      simp only [List.not_mem_nil, false_implies, implies_true, and_true, true_and]
      intro i hi s hs hm
      exact h s hs i hm hi
    · rename_i s k heq
      obtain ⟨h1, h2, h3⟩ := bestStep_some u cs none (s, k) (by simp) heq
      have hs : s ∈ cs := by simpa using h1
      have hlt : useful cs (u.diff s.idx) ≤ n := by
        suffices h : useful cs (u.diff s.idx) < useful cs u by omega
        obtain ⟨a, b, hab⟩ := List.append_of_mem hs
        have mono : ∀ l, useful l (u.diff s.idx) ≤ useful l u := by
          intro l
          apply List.countP_mono_left
          intro x _ hx
          simp only [decide_eq_true_eq, len_pos_iff, RangeSet.mem_inter, RangeSet.mem_diff] at *
          obtain ⟨i, hi⟩ := hx
          exact ⟨i, hi.1, hi.2.1⟩
        have e1 : ¬ 0 < (s.idx.inter (u.diff s.idx)).len := by
          rw [len_pos_iff]; rintro ⟨i, hi⟩
          simp only [RangeSet.mem_inter, RangeSet.mem_diff] at hi
          exact hi.2.2 hi.1
        have e2 : 0 < (s.idx.inter u).len := by
          simp only at h3 h2; omega
        have ma := mono a
        have mb := mono b
        rw [hab]
        unfold useful at *
        simp only [List.countP_append, List.countP_cons, e1, e2, decide_false, decide_true,
          if_true]
        simp only [Bool.false_eq_true, if_false]
        omega
      obtain ⟨i1, i2, i3⟩ := ih _ hlt
      refine ⟨?_, ?_, ?_⟩
      · intro x hx
        rcases List.mem_cons.1 hx with rfl | hx
        · exact hs
        · exact i1 x hx
      · intro i
        simp only
        rw [i2 i, RangeSet.mem_diff]
        simp only [List.mem_cons, forall_eq_or_imp, and_assoc]
      · exact i3

/-- The concrete greedy algorithm satisfies the assumed contract. -/
theorem greedyCover_contract : CoverContract greedyCover := by
  have hn : ∀ (u : RangeSet) (cs : List PlaintextHashSecret), useful cs u ≤ cs.length :=
    fun u cs => List.countP_le_length
  refine ⟨?_, ?_, ?_⟩
  · intro u cs s hs
    have := (greedyRounds_spec _ _ u (hn u (cs.filter fun s => s.idx.isSubset u))).1 s hs
    simpa using this
  · intro u cs i
    exact (greedyRounds_spec _ _ u (hn u (cs.filter fun s => s.idx.isSubset u))).2.1 i
  · intro u cs i hi s hs hsub
    exact (greedyRounds_spec _ _ u (hn u (cs.filter fun s => s.idx.isSubset u))).2.2 i hi s
      (by simp [hs, hsub])

end Tlsn
