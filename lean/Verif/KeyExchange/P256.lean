import Mathlib.NumberTheory.LucasPrimality
import Mathlib.Tactic.NormNum.Prime
import Mathlib.AlgebraicGeometry.EllipticCurve.Affine.Point

/-!
# The curve P-256

The prime of the curve, a proof that it is prime, the field and the curve.  The arithmetic of the crate `p256` and of
`mpz_fields::p256` is outside the repository and is modelled by the field of integers modulo the prime and by the group
of points of Mathlib.
-/

namespace Tlsn.Kex

/-- The prime of the curve: 2^256 - 2^224 + 2^192 + 2^96 - 1. -/
def p256 : Nat := 2 ^ 256 - 2 ^ 224 + 2 ^ 192 + 2 ^ 96 - 1

/-- `acc * b ^ e` modulo `m` by squaring. -/
def powMod (m : Nat) : Nat → Nat → Nat → Nat → Nat
  | 0, _, _, acc => acc % m
  | fuel + 1, b, e, acc => powMod m fuel (b * b % m) (e / 2) (if e % 2 = 1 then acc * b % m else acc)

theorem powMod_eq (m fuel : Nat) : ∀ b e acc, e < 2 ^ fuel → powMod m fuel b e acc = acc * b ^ e % m := by
  induction fuel with
  | zero => intro b e acc h; have : e = 0 := by simpa using h
            subst this; simp [powMod]
  | succ n ih =>
    intro b e acc h
    have h2 : e / 2 < 2 ^ n := by rw [Nat.pow_succ] at h; omega
    rw [powMod, ih _ _ _ h2]
    have hb : (b * b % m) ^ (e / 2) ≡ b ^ (2 * (e / 2)) [MOD m] := by
      rw [pow_mul, pow_two]; exact (Nat.mod_modEq _ _).pow _
    by_cases ho : e % 2 = 1
    · rw [if_pos ho]
      have he : e = 2 * (e / 2) + 1 := by omega
      have : acc * b % m * (b * b % m) ^ (e / 2) ≡ acc * b * b ^ (2 * (e / 2)) [MOD m] := (Nat.mod_modEq _ _).mul hb
      rw [show acc * b ^ e = acc * b * b ^ (2 * (e / 2)) by
        conv_lhs => rw [he]
        rw [pow_succ]; ring]
      exact this
    · rw [if_neg ho]
      have he : e = 2 * (e / 2) := by omega
      conv_rhs => rw [he]
      exact hb.mul_left acc

/-- The test of a certificate: `fs` multiply to `p - 1`, and `a` has order `p - 1`. -/
def certOk (p a : Nat) (fs : List Nat) : Bool :=
  1 < p && p < 2 ^ 256 && fs.prod == p - 1 && powMod p 256 a (p - 1) 1 == 1 &&
    fs.all fun q => powMod p 256 a ((p - 1) / q) 1 != 1

theorem lucas {p a : Nat} {fs : List Nat} (hf : ∀ q ∈ fs, q.Prime) (h : certOk p a fs = true) : p.Prime := by
  simp only [certOk, Bool.and_eq_true, decide_eq_true_eq, beq_iff_eq, List.all_eq_true, bne_iff_ne] at h
  obtain ⟨⟨⟨⟨h1, hlt⟩, hprod⟩, ha⟩, hd⟩ := h
  rw [powMod_eq _ _ _ _ _ (by omega), one_mul] at ha
  have key : ∀ e : Nat, ((a : ZMod p) ^ e = 1 ↔ a ^ e % p = 1) := by
    intro e
    rw [← Nat.cast_pow, ← Nat.cast_one, ZMod.natCast_eq_natCast_iff, Nat.ModEq, Nat.mod_eq_of_lt h1]
  refine lucas_primality p (a : ZMod p) ((key _).2 ha) fun q hq hqd hone => ?_
  rw [← hprod, Prime.dvd_prod_iff hq.prime] at hqd
  obtain ⟨r, hr, hqr⟩ := hqd
  have : q = r := (Nat.prime_dvd_prime_iff_eq hq (hf r hr)).1 hqr
  subst this
  refine hd q hr ?_
  rw [powMod_eq _ _ _ _ _ (lt_of_le_of_lt (Nat.div_le_self _ _) (by omega)), one_mul]
  exact (key _).1 hone

theorem prime_6700417 : Nat.Prime 6700417 :=
  lucas (a := 5) (fs := [2, 2, 2, 2, 2, 2, 2, 3, 17449])
    (by simp only [List.forall_mem_cons]
        exact ⟨(by norm_num), (by norm_num), (by norm_num), (by norm_num), (by norm_num), (by norm_num), (by norm_num), (by norm_num), (by norm_num), by simp⟩)
    (by decide +kernel)

theorem prime_204061199 : Nat.Prime 204061199 :=
  lucas (a := 11) (fs := [2, 11, 23, 107, 3769])
    (by simp only [List.forall_mem_cons]
        exact ⟨(by norm_num), (by norm_num), (by norm_num), (by norm_num), (by norm_num), by simp⟩)
    (by decide +kernel)

theorem prime_34282281433 : Nat.Prime 34282281433 :=
  lucas (a := 17) (fs := [2, 2, 2, 3, 7, 204061199])
    (by simp only [List.forall_mem_cons]
        exact ⟨(by norm_num), (by norm_num), (by norm_num), (by norm_num), (by norm_num), prime_204061199, by simp⟩)
    (by decide +kernel)

theorem prime_66417393611 : Nat.Prime 66417393611 :=
  lucas (a := 6) (fs := [2, 5, 53, 173, 197, 3677])
    (by simp only [List.forall_mem_cons]
        exact ⟨(by norm_num), (by norm_num), (by norm_num), (by norm_num), (by norm_num), (by norm_num), by simp⟩)
    (by decide +kernel)

theorem prime_11290956913871 : Nat.Prime 11290956913871 :=
  lucas (a := 13) (fs := [2, 5, 17, 66417393611])
    (by simp only [List.forall_mem_cons]
        exact ⟨(by norm_num), (by norm_num), (by norm_num), prime_66417393611, by simp⟩)
    (by decide +kernel)

theorem prime_46076956964474543 : Nat.Prime 46076956964474543 :=
  lucas (a := 5) (fs := [2, 23, 18169, 78283, 704251])
    (by simp only [List.forall_mem_cons]
        exact ⟨(by norm_num), (by norm_num), (by norm_num), (by norm_num), (by norm_num), by simp⟩)
    (by decide +kernel)

theorem prime_774023187263532362759620327192479577272145303 : Nat.Prime 774023187263532362759620327192479577272145303 :=
  lucas (a := 3) (fs := [2, 3, 3, 2411, 34282281433, 11290956913871, 46076956964474543])
    (by simp only [List.forall_mem_cons]
        exact ⟨(by norm_num), (by norm_num), (by norm_num), (by norm_num), prime_34282281433, prime_11290956913871, prime_46076956964474543, by simp⟩)
    (by decide +kernel)

theorem prime_835945042244614951780389953367877943453916927241 : Nat.Prime 835945042244614951780389953367877943453916927241 :=
  lucas (a := 11) (fs := [2, 2, 2, 3, 3, 3, 5, 774023187263532362759620327192479577272145303])
    (by simp only [List.forall_mem_cons]
        exact ⟨(by norm_num), (by norm_num), (by norm_num), (by norm_num), (by norm_num), (by norm_num), (by norm_num), prime_774023187263532362759620327192479577272145303, by simp⟩)
    (by decide +kernel)

theorem p256_prime : Nat.Prime p256 :=
  lucas (a := 6) (fs := [2, 3, 5, 5, 17, 257, 641, 1531, 65537, 490463, 6700417, 835945042244614951780389953367877943453916927241])
    (by simp only [List.forall_mem_cons]
        exact ⟨(by norm_num), (by norm_num), (by norm_num), (by norm_num), (by norm_num), (by norm_num), (by norm_num), (by norm_num), (by norm_num), (by norm_num), prime_6700417, prime_835945042244614951780389953367877943453916927241, by simp⟩)
    (by decide +kernel)

instance : Fact p256.Prime := ⟨p256_prime⟩

/-- `mpz_fields::p256::P256`. -/
abbrev Fp := ZMod p256

/-- The coefficient b of the curve. -/
def curveB : Fp := ((0x5ac635d8aa3a93e7b3ebbd55769886bc651d06b0cc53b0f63bce3c3e27d2604b : Nat) : Fp)

/-- The curve y² = x³ - 3x + b. -/
def curve : WeierstrassCurve.Affine Fp := { a₁ := 0, a₂ := 0, a₃ := 0, a₄ := -3, a₆ := curveB }

/-- The points of the curve with their group law. -/
abbrev Point := curve.Point

theorem curve_equation_iff (x y : Fp) : curve.Equation x y ↔ y ^ 2 = x ^ 3 - 3 * x + curveB := by
  rw [WeierstrassCurve.Affine.equation_iff]
  simp only [curve]
  constructor <;> intro h <;> linear_combination h

/-- Twice the y coordinate of a point is not zero, so a solution of the equation is a point. -/
theorem curve_nonsingular {x y : Fp} (h : y ^ 2 = x ^ 3 - 3 * x + curveB) (hy : y ≠ 0) : curve.Nonsingular x y := by
  rw [WeierstrassCurve.Affine.nonsingular_iff]
  refine ⟨(curve_equation_iff x y).2 h, Or.inr fun e => hy ?_⟩
  simp only [curve, zero_mul, sub_zero] at e
  have h2 : (2 : Fp) ≠ 0 := by
    intro h0
    have : ((2 : Nat) : ZMod p256) = ((0 : Nat) : ZMod p256) := by exact_mod_cast h0
    rw [ZMod.natCast_eq_natCast_iff] at this
    exact absurd this (by decide +kernel)
  have : 2 * y = 0 := by linear_combination e
  exact (mul_eq_zero.1 this).resolve_left h2

/-- Coordinates given as numbers are on the curve when the equation holds modulo the prime. -/
theorem on_curve_of_nat {x y : Nat}
    (h : (y ^ 2 + 3 * x) % p256 = (x ^ 3 + 0x5ac635d8aa3a93e7b3ebbd55769886bc651d06b0cc53b0f63bce3c3e27d2604b) % p256) :
    ((y : Fp)) ^ 2 = (x : Fp) ^ 3 - 3 * (x : Fp) + curveB := by
  have : ((y ^ 2 + 3 * x : Nat) : Fp) =
      ((x ^ 3 + 0x5ac635d8aa3a93e7b3ebbd55769886bc651d06b0cc53b0f63bce3c3e27d2604b : Nat) : Fp) :=
    (ZMod.natCast_eq_natCast_iff _ _ _).2 h
  rw [Nat.cast_add, Nat.cast_add, Nat.cast_pow, Nat.cast_pow, Nat.cast_mul] at this
  unfold curveB
  linear_combination this

theorem natCast_ne_zero {y : Nat} (h : y % p256 ≠ 0) : (y : Fp) ≠ 0 := by
  intro e
  rw [← Nat.cast_zero, ZMod.natCast_eq_natCast_iff] at e
  exact h (by rw [e]; rfl)

def baseX : Nat := 0x6b17d1f2e12c4247f8bce6e563a440f277037d812deb33a0f4a13945d898c296
def baseY : Nat := 0x4fe342e2fe1a7f9b8ee7eb4a7c0f9e162bce33576b315ececbb6406837bf51f5

theorem base_nonsingular : curve.Nonsingular (baseX : Fp) (baseY : Fp) :=
  curve_nonsingular (on_curve_of_nat (by decide +kernel)) (natCast_ne_zero (by decide +kernel))

/-- The base point of the curve. -/
def basePoint : Point := .some _ _ base_nonsingular

end Tlsn.Kex
