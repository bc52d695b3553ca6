import Verif.AgeExample.Model

/-! # Specification: calendar dates, their texts, and being older than 18 -/

namespace Tlsn.Age

/-- Leap years of the Gregorian calendar. -/
def Leap (y : Nat) : Prop := 4 ∣ y ∧ (¬100 ∣ y ∨ 400 ∣ y)

instance (y : Nat) : Decidable (Leap y) := by unfold Leap; infer_instance

/-- The lengths of the months, January first. -/
def monthLengths (y : Nat) : List Nat := [31, if Leap y then 29 else 28, 31, 30, 31, 30, 31, 31, 30, 31, 30, 31]

/-- There is such a day in the calendar. -/
def IsDate (y m d : Nat) : Prop := 1 ≤ m ∧ 1 ≤ d ∧ ∃ n, (monthLengths y)[m - 1]? = some n ∧ d ≤ n

/-- One day is before another. -/
def Earlier (a b : Int × Nat × Nat) : Prop :=
  a.1 < b.1 ∨ a.1 = b.1 ∧ (a.2.1 < b.2.1 ∨ a.2.1 = b.2.1 ∧ a.2.2 < b.2.2)

instance (a b : Int × Nat × Nat) : Decidable (Earlier a b) := by unfold Earlier; infer_instance

/-- The last `k` decimal digits of a number in ASCII. -/
def decimal : Nat → Nat → Bytes
  | 0, _ => []
  | k + 1, n => decimal k (n / 10) ++ [UInt8.ofNat (48 + n % 10)]

/-- The text is a year of four digits, any byte, a month of two, any byte, and a day of two, like `1985-03-12`. -/
def Reads (text : Bytes) (y m d : Nat) : Prop :=
  y < 10000 ∧ m < 100 ∧ d < 100 ∧ ∃ a b, text = decimal 4 y ++ a :: (decimal 2 m ++ b :: decimal 2 d)

/-- The day somebody becomes 18, who was born on the given day: if that is the 29th of February and the year has none,
the first of March. -/
def eighteenth (y m d : Nat) : Int × Nat × Nat :=
  if m = 2 ∧ d = 29 ∧ ¬Leap (y + 18) then (y + 18, 3, 1) else (y + 18, m, d)

/-- The three numbers of a date of the clock. -/
def NaiveDate.ymd (t : NaiveDate) : Int × Nat × Nat := (t.year, t.month, t.day)

/-- The date that stands in the public inputs of a proof, as the circuit has it: big-endian numbers in the first three
elements of 32 bytes. -/
def dateOf (proof : Bytes) : Nat × Nat × Nat :=
  (beNat ((proof.drop 68).take 32), beNat ((proof.drop 36).take 32), beNat ((proof.drop 4).take 32))

/-- Two different inputs with the same hash. -/
def ShaCollision (sha : Bytes → Bytes) : Prop := ∃ x y, x ≠ y ∧ sha x = sha y

/-- What the prover sends after the session holds the proof, made for the verification key: `bincode`. -/
def Carries (buf : Option Bytes) (vk proof : Bytes) : Prop :=
  vk.length < 2 ^ 64 ∧ proof.length < 2 ^ 64 ∧ ∃ extra, buf = some (writeBundle vk proof ++ extra)

/-- The first commitment to received data of the output. -/
def FirstReceived (out : VerifierOutput) (c : PlaintextHash) : Prop :=
  ∃ before after, out.commitments = before ++ c :: after ∧ c.direction = .received ∧ ∀ x ∈ before, x.direction = .sent

/-- The proof system is sound: what it accepts begins with public inputs, of the types that the program declares, for
which there are private inputs that meet all assertions of the program. -/
def Sound (L : Lib) (sha : Bytes → Bytes) : Prop :=
  ∀ vk proof, L.vk = some vk → L.verify proof vk = some true →
    ∃ pd committed dob blinder rest, pd.Typed ∧ committed.length = 32 ∧ dob.length = 10 ∧ blinder.length = 16 ∧
      circuit sha pd committed dob blinder = true ∧ proof = publicPart pd committed ++ rest

/-- The proof system is complete: for inputs that meet all assertions it makes a proof that it accepts. -/
def Complete (L : Lib) (sha : Bytes → Bytes) : Prop :=
  ∃ vk, L.vk = some vk ∧ vk.length < 2 ^ 64 ∧
    ∀ (pd : Date) (committed dob blinder : Bytes), pd.Typed → committed.length = 32 → dob.length = 10 → blinder.length = 16 →
      circuit sha pd committed dob blinder = true →
      ∃ rest, (publicPart pd committed ++ rest).length < 2 ^ 64 ∧ L.verify (publicPart pd committed ++ rest) vk = some true

end Tlsn.Age
