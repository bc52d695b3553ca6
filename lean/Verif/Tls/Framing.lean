import Verif.Tls.FrameSpec

/-! # Splitting a stream into messages, generically -/

namespace Tlsn

/-- The verdict about the front of a buffer. -/
inductive FrontStep (μ : Type) where
  | more
  | bad
  | msg (m : μ) (n : Nat)

/-- Verdicts other than `more` do not change when more bytes arrive. -/
structure FrontStable {μ : Type} (step : Bytes → FrontStep μ) : Prop where
  msg : ∀ b m n, step b = .msg m n → 0 < n ∧ n ≤ b.length ∧ ∀ c, step (b ++ c) = .msg m n
  bad : ∀ b, step b = .bad → ∀ c, step (b ++ c) = .bad

def splitFuel {μ : Type} (step : Bytes → FrontStep μ) : Nat → Bytes → List μ × Bool × Bytes
  | 0, b => ([], false, b)
  | n + 1, b =>
    match step b with
    | .more => ([], false, b)
    | .bad => ([], true, b)
    | .msg m k =>
      let p := splitFuel step n (b.drop k)
      (m :: p.1, p.2.1, p.2.2)

def splitAll {μ : Type} (step : Bytes → FrontStep μ) (b : Bytes) : List μ × Bool × Bytes :=
  splitFuel step (b.length + 1) b

theorem splitFuel_irrel {μ : Type} {step : Bytes → FrontStep μ} (hs : FrontStable step) (n : Nat) (b : Bytes)
    (hn : b.length < n) : splitFuel step n b = splitAll step b := by
  suffices h : ∀ (n n' : Nat) (b : Bytes), b.length < n → b.length < n' → splitFuel step n b = splitFuel step n' b from
    h n _ b hn (by omega)
  intro n
  induction n with
  | zero => intro n' b h; omega
  | succ n ih =>
    intro n' b h h'
    obtain ⟨m, rfl⟩ : ∃ m, n' = m + 1 := ⟨n' - 1, by omega⟩
    unfold splitFuel
    cases hb : step b with
    | more => rfl
    | bad => rfl
    | msg x k =>
      obtain ⟨h1, h2, _⟩ := hs.msg b x k hb
      simp only
      rw [ih m (b.drop k) (by simp; omega) (by simp; omega)]

theorem splitAll_more {μ : Type} {step : Bytes → FrontStep μ} {b : Bytes} (h : step b = .more) :
    splitAll step b = ([], false, b) := by
  unfold splitAll splitFuel
  rw [h]

theorem splitAll_bad {μ : Type} {step : Bytes → FrontStep μ} {b : Bytes} (h : step b = .bad) :
    splitAll step b = ([], true, b) := by
  unfold splitAll splitFuel
  rw [h]

theorem splitAll_msg {μ : Type} {step : Bytes → FrontStep μ} (hs : FrontStable step) {b : Bytes} {m : μ} {k : Nat}
    (h : step b = .msg m k) :
    splitAll step b =
      (m :: (splitAll step (b.drop k)).1, (splitAll step (b.drop k)).2.1, (splitAll step (b.drop k)).2.2) := by
  conv => lhs; unfold splitAll splitFuel
  rw [h]
  obtain ⟨h1, h2, _⟩ := hs.msg b m k h
  simp only
  rw [splitFuel_irrel hs _ _ (by simp; omega)]

/-- Induction along the messages of a stream. -/
theorem split_induction {μ : Type} {step : Bytes → FrontStep μ} (hs : FrontStable step) {P : Bytes → Prop}
    (hmore : ∀ b, step b = .more → P b) (hbad : ∀ b, step b = .bad → P b)
    (hmsg : ∀ b m k, step b = .msg m k → P (b.drop k) → P b) (b : Bytes) : P b := by
  suffices h : ∀ (n : Nat) (b : Bytes), b.length < n → P b from h _ b (Nat.lt_succ_self _)
  intro n
  induction n with
  | zero => intro b h; omega
  | succ n ih =>
    intro b hb
    cases h : step b with
    | more => exact hmore b h
    | bad => exact hbad b h
    | msg m k =>
      obtain ⟨h1, h2, _⟩ := hs.msg b m k h
      exact hmsg b m k h (ih _ (by simp; omega))

theorem splitAll_append {μ : Type} {step : Bytes → FrontStep μ} (hs : FrontStable step) (b c : Bytes) :
    splitAll step (b ++ c) =
      if (splitAll step b).2.1 then ((splitAll step b).1, true, (splitAll step b).2.2 ++ c)
      else ((splitAll step b).1 ++ (splitAll step ((splitAll step b).2.2 ++ c)).1,
        (splitAll step ((splitAll step b).2.2 ++ c)).2.1, (splitAll step ((splitAll step b).2.2 ++ c)).2.2) := by
  induction b using split_induction hs with
  | hmore b h => rw [splitAll_more h]; simp
  | hbad b h => rw [splitAll_bad h, splitAll_bad (hs.bad b h c)]; simp
  | hmsg b m k h ih =>
    obtain ⟨h1, h2, h3⟩ := hs.msg b m k h
    rw [splitAll_msg hs h, splitAll_msg hs (h3 c), List.drop_append_of_le_length h2, ih]
    by_cases hd : (splitAll step (b.drop k)).2.1 = true
    · simp only [hd, if_true]
    · simp only [hd, Bool.false_eq_true, if_false, List.cons_append]

/-- What is left over needs more bytes or is bad. -/
theorem splitAll_rest {μ : Type} {step : Bytes → FrontStep μ} (hs : FrontStable step) (b : Bytes) :
    step (splitAll step b).2.2 = if (splitAll step b).2.1 then .bad else .more := by
  induction b using split_induction hs with
  | hmore b h => rw [splitAll_more h]; simpa using h
  | hbad b h => rw [splitAll_bad h]; simpa using h
  | hmsg b m k h ih => rw [splitAll_msg hs h]; exact ih

theorem splitAll_rest_length {μ : Type} {step : Bytes → FrontStep μ} (hs : FrontStable step) (b : Bytes) :
    (splitAll step b).2.2.length ≤ b.length := by
  induction b using split_induction hs with
  | hmore b h => rw [splitAll_more h]; simp
  | hbad b h => rw [splitAll_bad h]; simp
  | hmsg b m k h ih =>
    rw [splitAll_msg hs h]
    simp only [List.length_drop] at ih ⊢
    omega

end Tlsn
