import Verif.AgeExample.Spec
import Mathlib.Tactic.IntervalCases

/-! # The dates of the circuit agree with the calendar -/

namespace Tlsn.Age

theorem isLeapYear_iff (y : Nat) : isLeapYear y = true ↔ Leap y := by
  simp only [isLeapYear, Leap, Bool.or_eq_true, Bool.and_eq_true, beq_iff_eq, bne_iff_ne]
  omega

theorem leapInt_cast (y : Nat) : leapInt (y : Int) = isLeapYear y := by
  rw [Bool.eq_iff_iff]
  simp only [isLeapYear, leapInt, Bool.or_eq_true, Bool.and_eq_true, beq_iff_eq, bne_iff_ne]
  omega

theorem isDate_iff (y m d : Nat) :
    IsDate y m d ↔ 1 ≤ m ∧ m ≤ 12 ∧ 1 ≤ d ∧ d ≤ daysInMonth (isLeapYear y) m := by
  unfold IsDate
  by_cases h : 1 ≤ m ∧ m ≤ 12
  · obtain ⟨h1, h2⟩ := h
    have : (monthLengths y)[m - 1]? = some (daysInMonth (isLeapYear y) m) := by
      unfold monthLengths daysInMonth
      by_cases hl : Leap y
      · rw [if_pos hl, (isLeapYear_iff y).2 hl]
        interval_cases m <;> rfl
      · have hb : isLeapYear y = false := by
          rw [← Bool.not_eq_true]; exact fun h => hl ((isLeapYear_iff y).1 h)
        rw [if_neg hl, hb]
        interval_cases m <;> rfl
    rw [this]
    simp [h1, h2]
  · constructor
    · rintro ⟨h1, h2, n, h3, h4⟩
      have : m - 1 < 12 := by
        have := (List.getElem?_eq_some_iff.1 h3).1
        simpa [monthLengths] using this
      omega
    · rintro ⟨h1, h2, _⟩
      omega

theorem leapYearCount_step (y : Nat) : leapYearCount y ≤ leapYearCount (y + 1) := by
  unfold leapYearCount; omega

theorem leapYearCount_mono {a b : Nat} (h : a ≤ b) : leapYearCount a ≤ leapYearCount b := by
  induction h with
  | refl => exact Int.le_refl _
  | step _ ih => exact Int.le_trans ih (leapYearCount_step _)

theorem daysBetween_facts (l : Bool) : ∀ a < 13, ∀ b < 13, 1 ≤ a →
    (a < b → daysInMonth l a ≤ daysBetween l a b) ∧ daysBetween l a b + 31 ≤ 365 + (if l then 1 else 0) := by
  cases l <;> decide +kernel

theorem daysInMonth_le (l : Bool) (m : Nat) : daysInMonth l m ≤ 31 := by
  unfold daysInMonth; split <;> (try split) <;> simp

/-- For dates of the calendar `lt` is the order of the calendar. -/
theorem lt_calendar (s o : Date) (hs : IsDate s.year s.month s.day) (ho : IsDate o.year o.month o.day) :
    s.lt o = some (decide (Earlier (s.year, s.month, s.day) (o.year, o.month, o.day))) := by
  rw [isDate_iff] at hs ho
  obtain ⟨s1, s2, s3, s4⟩ := hs
  obtain ⟨o1, o2, o3, o4⟩ := ho
  have s5 := daysInMonth_le (isLeapYear s.year) s.month
  have o5 := daysInMonth_le (isLeapYear o.year) o.month
  obtain ⟨fa, fb⟩ := daysBetween_facts (isLeapYear o.year) s.month (by omega) o.month (by omega) s1
  obtain ⟨ga, gb⟩ := daysBetween_facts (isLeapYear s.year) o.month (by omega) s.month (by omega) o1
  unfold Date.lt durationInDays durationBetweenMonths
  rw [if_pos ⟨⟨s1, s2⟩, o1, o2⟩]
  by_cases hm : s.month < o.month
  · rw [if_pos hm]
    simp only [Option.map_some, Option.some.injEq]
    rw [decide_eq_decide]
    simp only [Earlier]
    unfold durationBetweenYears
    rcases Nat.lt_trichotomy s.year o.year with hy | hy | hy
    · have hl : 0 ≤ leapYearCount (o.year - 1) - leapYearCount s.year := by
        have := leapYearCount_mono (a := s.year) (b := o.year - 1) (by omega); omega
      simp only [if_pos hy]
      refine ⟨fun _ => .inl (by omega), fun _ => ?_⟩
      have := fa hm
      split <;> split <;> omega
    · rw [hy] at s4
      rw [if_neg (by omega), if_neg (by omega), if_neg (by omega), if_neg (by omega)]
      have := fa hm
      refine ⟨fun _ => .inr ⟨by omega, .inl hm⟩, fun _ => by omega⟩
    · have hl : 0 ≤ leapYearCount (s.year - 1) - leapYearCount o.year := by
        have := leapYearCount_mono (a := o.year) (b := s.year - 1) (by omega); omega
      simp only [if_neg (show ¬s.year < o.year by omega), if_pos hy]
      refine ⟨fun h => ?_, fun h => by omega⟩
      exfalso
      revert h fb
      split <;> split <;> intro fb h <;> omega
  · rw [if_neg hm]
    simp only [Option.map_some, Option.some.injEq]
    rw [decide_eq_decide]
    simp only [Earlier]
    unfold durationBetweenYears
    rcases Nat.lt_trichotomy s.year o.year with hy | hy | hy
    · have hl : 0 ≤ leapYearCount (o.year - 1) - leapYearCount s.year := by
        have := leapYearCount_mono (a := s.year) (b := o.year - 1) (by omega); omega
      simp only [if_pos hy]
      refine ⟨fun _ => .inl (by omega), fun _ => ?_⟩
      revert gb
      split <;> split <;> intro gb <;> omega
    · rw [← hy] at o4
      rw [if_neg (by omega), if_neg (by omega), if_neg (by omega), if_neg (by omega)]
      by_cases he : s.month = o.month
      · have h0 : daysBetween (isLeapYear s.year) o.month s.month = 0 := by
          rw [he]
          have : ∀ l : Bool, ∀ a < 13, daysBetween l a a = 0 := by decide +kernel
          exact this _ _ (by omega)
        omega
      · have := ga (by omega)
        omega
    · simp only [if_neg (show ¬s.year < o.year by omega), if_pos hy]
      have hl : 0 ≤ leapYearCount (s.year - 1) - leapYearCount o.year := by
        have := leapYearCount_mono (a := o.year) (b := s.year - 1) (by omega); omega
      refine ⟨fun h => ?_, fun h => by omega⟩
      exfalso
      revert h
      split <;> split <;> intro h <;> omega

/-! ## Texts -/

theorem digit_ofNat (n : Nat) (h : n < 10) : digit (UInt8.ofNat (48 + n)) = some n := by
  have : (UInt8.ofNat (48 + n)).toNat = 48 + n := by simp; omega
  unfold digit
  rw [this, if_pos (by omega)]
  congr 1; omega

theorem digit_some {c : Byte} {n : Nat} (h : digit c = some n) : n < 10 ∧ c = UInt8.ofNat (48 + n) := by
  unfold digit at h
  split at h
  next hc =>
    cases h
    refine ⟨by omega, ?_⟩
    apply UInt8.toNat_inj.1
    simp; omega
  · cases h

theorem decimal4 (n : Nat) : decimal 4 n = [UInt8.ofNat (48 + n / 1000 % 10), UInt8.ofNat (48 + n / 100 % 10),
    UInt8.ofNat (48 + n / 10 % 10), UInt8.ofNat (48 + n % 10)] := by
  simp only [decimal, List.nil_append, List.cons_append, Nat.div_div_eq_div_mul]

theorem decimal2 (n : Nat) : decimal 2 n = [UInt8.ofNat (48 + n / 10 % 10), UInt8.ofNat (48 + n % 10)] := by
  simp only [decimal, List.nil_append, List.cons_append]

/-- The program reads just the texts of the specification. -/
theorem parse_iff (text : Bytes) (y m d : Nat) : parseBirthDate text = some ⟨d, m, y⟩ ↔ Reads text y m d := by
  constructor
  · intro h
    unfold parseBirthDate at h
    split at h
    next a b c e s f g s' i j =>
      unfold fromBytesLongYear at h
      dsimp only at h
      split at h
      next a' b' c' e' f' g' i' j' ha hb hc he hf hg hi hj =>
        simp only [Option.some.injEq, Date.mk.injEq] at h
        obtain ⟨h1, h2, h3⟩ := h
        obtain ⟨ha, rfl⟩ := digit_some ha
        obtain ⟨hb, rfl⟩ := digit_some hb
        obtain ⟨hc, rfl⟩ := digit_some hc
        obtain ⟨he, rfl⟩ := digit_some he
        obtain ⟨hf, rfl⟩ := digit_some hf
        obtain ⟨hg, rfl⟩ := digit_some hg
        obtain ⟨hi, rfl⟩ := digit_some hi
        obtain ⟨hj, rfl⟩ := digit_some hj
        refine ⟨by omega, by omega, by omega, s, s', ?_⟩
        rw [decimal4, decimal2, decimal2]
        simp only [List.cons_append, List.nil_append, List.cons.injEq, true_and, and_true]
        refine ⟨?_, ?_, ?_, ?_, ?_, ?_, ?_, ?_⟩ <;> congr 2 <;> omega
      · cases h
    · cases h
  · rintro ⟨hy, hm, hd, a, b, rfl⟩
    rw [decimal4, decimal2, decimal2]
    simp only [List.cons_append, List.nil_append, parseBirthDate, fromBytesLongYear]
    repeat rw [digit_ofNat _ (Nat.mod_lt _ (by omega))]
    simp only [Option.some.injEq, Date.mk.injEq]
    omega

theorem addYears_eighteenth (y m d : Nat) :
    (Date.mk d m y).addYears 18 = ⟨(eighteenth y m d).2.2, (eighteenth y m d).2.1, y + 18⟩ ∧
      (eighteenth y m d).1 = ((y + 18 : Nat) : Int) := by
  unfold Date.addYears eighteenth
  by_cases hl : Leap (y + 18)
  · have := (isLeapYear_iff (y + 18)).2 hl
    simp [hl, this]
  · have hb : isLeapYear (y + 18) = false := by
      rw [← Bool.not_eq_true]; exact fun h => hl ((isLeapYear_iff _).1 h)
    by_cases h2 : m = 2 ∧ d = 29
    · simp [hl, hb, h2]
    · rw [if_neg (by simpa [hb] using h2), if_neg (by simpa [hl] using h2)]
      simp

theorem eighteenth_isDate {y m d : Nat} (h : IsDate y m d) :
    IsDate (y + 18) (eighteenth y m d).2.1 (eighteenth y m d).2.2 := by
  rw [isDate_iff] at h
  rw [isDate_iff]
  unfold eighteenth
  obtain ⟨h1, h2, h3, h4⟩ := h
  split
  · dsimp only
    exact ⟨by omega, by omega, by omega, by simp [daysInMonth]⟩
  next hn =>
    refine ⟨h1, h2, h3, ?_⟩
    dsimp only
    by_cases hm : m = 2
    · subst hm
      have h5 : d ≤ 29 := by unfold daysInMonth at h4; simp at h4; split at h4 <;> omega
      by_cases hl : Leap (y + 18)
      · rw [(isLeapYear_iff _).2 hl]; exact h5
      · have h6 : d ≠ 29 := fun h => hn ⟨rfl, h, hl⟩
        have h7 : 28 ≤ daysInMonth (isLeapYear (y + 18)) 2 := by unfold daysInMonth; simp; split <;> omega
        omega
    · unfold daysInMonth at h4 ⊢
      rw [if_neg hm] at h4 ⊢
      exact h4

/-- The check of the age in the program, for a date of birth and a date of the proof of the calendar. -/
theorem check18_calendar (text : Bytes) (y m d : Nat) (pd : Date) (ht : Reads text y m d) (hd : IsDate y m d)
    (hp : IsDate pd.year pd.month pd.day) :
    check18 text pd = some (decide (Earlier (eighteenth y m d) (pd.year, pd.month, pd.day))) := by
  unfold check18
  rw [(parse_iff text y m d).2 ht]
  obtain ⟨h1, h2⟩ := addYears_eighteenth y m d
  simp only [h1]
  rw [lt_calendar _ _ (eighteenth_isDate hd) hp]
  simp only [← h2]

end Tlsn.Age
