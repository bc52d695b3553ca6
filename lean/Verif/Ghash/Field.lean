import Verif.Base.Bytes
import Mathlib.RingTheory.AdjoinRoot
import Mathlib.Algebra.CharP.Two
import Mathlib.Data.ZMod.Basic
import Mathlib.Algebra.Ring.InjSurj

/-!
# The field of GHASH

`mpz_fields::gf2_128::Gf2_128` (an external crate) represents an element by a `u128` whose bit `i` is the
coefficient of `x^i`, and reduces modulo `x^128 + x^7 + x^2 + x + 1`.  Here the same arithmetic is defined
on `BitVec 128` so that it computes, and is shown to be the arithmetic of polynomials over the integers
modulo two, modulo that polynomial.
-/

namespace Tlsn

/-- An element: bit `i` is the coefficient of `x^i`. -/
structure Gf128 where
  bits : BitVec 128
  deriving DecidableEq, Repr

namespace Gf128

/-- Multiplication by `x`. -/
def mulX (a : BitVec 128) : BitVec 128 :=
  if a.getLsbD 127 then (a <<< 1) ^^^ 0x87#128 else a <<< 1

/-- Multiplication, by Horner's rule in the coefficients of the second factor. -/
def mulBits (a b : BitVec 128) : BitVec 128 :=
  (List.range 128).foldr (fun i acc => mulX acc ^^^ (if b.getLsbD i then a else 0#128)) 0#128

instance : Zero Gf128 := ⟨⟨0#128⟩⟩
instance : One Gf128 := ⟨⟨1#128⟩⟩
instance : Add Gf128 := ⟨fun a b => ⟨a.bits ^^^ b.bits⟩⟩
instance : Mul Gf128 := ⟨fun a b => ⟨mulBits a.bits b.bits⟩⟩
instance : Neg Gf128 := ⟨fun a => a⟩
instance : Sub Gf128 := ⟨fun a b => a + b⟩
instance : NatCast Gf128 := ⟨fun n => if n % 2 = 1 then 1 else 0⟩
instance : IntCast Gf128 := ⟨fun n => if n % 2 = 1 then 1 else 0⟩
instance : SMul ℕ Gf128 := ⟨fun n a => if n % 2 = 1 then a else 0⟩
instance : SMul ℤ Gf128 := ⟨fun n a => if n % 2 = 1 then a else 0⟩
/-- Powers by repeated multiplication. -/
def powNat (a : Gf128) : ℕ → Gf128
  | 0 => 1
  | n + 1 => powNat a n * a
instance : Pow Gf128 ℕ := ⟨powNat⟩

open Polynomial

/-- The degree, 128; kept folded for the sake of the elaborator. -/
@[irreducible] def deg : ℕ := 128

theorem deg_eq : deg = 128 := by unfold deg; rfl

/-- The polynomial of GHASH. -/
noncomputable def poly : (ZMod 2)[X] := X ^ deg + (X ^ 7 + X ^ 2 + X + 1)

/-- Polynomials over the integers modulo two, modulo the polynomial of GHASH. -/
noncomputable abbrev Quot128 := AdjoinRoot poly

/-- The polynomial with the given coefficients. -/
noncomputable def toPoly (a : BitVec 128) : (ZMod 2)[X] :=
  ∑ i ∈ Finset.range deg, if a.getLsbD i then X ^ i else 0

/-- The meaning of an element. -/
noncomputable def ev (a : BitVec 128) : Quot128 := AdjoinRoot.mk poly (toPoly a)

theorem degree_low : ((X : (ZMod 2)[X]) ^ 7 + X ^ 2 + X + 1).degree < (deg : WithBot ℕ) := by
  have h7 : ((X : (ZMod 2)[X]) ^ 7 + X ^ 2 + X + 1).degree ≤ 7 := by compute_degree
  have : ((7 : ℕ) : WithBot ℕ) < (deg : WithBot ℕ) := WithBot.coe_lt_coe.2 (by rw [deg_eq]; omega)
  exact lt_of_le_of_lt h7 this

theorem poly_monic : poly.Monic := by
  exact Polynomial.monic_X_pow_add degree_low

theorem poly_degree : poly.degree = (deg : WithBot ℕ) := by
  rw [poly, Polynomial.degree_add_eq_left_of_degree_lt]
  · exact degree_X_pow _
  · rw [degree_X_pow]; exact degree_low

theorem two_eq_zero : (2 : (ZMod 2)[X]) = 0 := by
  have h : (2 : ZMod 2) = 0 := rfl
  have : (C (2 : ZMod 2) : (ZMod 2)[X]) = 0 := by rw [h, map_zero]
  rwa [show (C (2 : ZMod 2) : (ZMod 2)[X]) = 2 from map_ofNat C 2] at this

theorem add_self_poly (a : (ZMod 2)[X]) : a + a = 0 := by
  rw [← two_mul, two_eq_zero, zero_mul]

theorem toPoly_xor (a b : BitVec 128) : toPoly (a ^^^ b) = toPoly a + toPoly b := by
  rw [toPoly, toPoly, toPoly, ← Finset.sum_add_distrib]
  refine Finset.sum_congr rfl fun i _ => ?_
  rw [BitVec.getLsbD_xor]
  cases a.getLsbD i <;> cases b.getLsbD i <;> simp [add_self_poly]

theorem toPoly_zero : toPoly 0#128 = 0 := by simp [toPoly]

theorem toPoly_degree (a : BitVec 128) : (toPoly a).degree < (deg : WithBot ℕ) := by
  rw [toPoly]
  refine lt_of_le_of_lt (Polynomial.degree_sum_le _ _) ?_
  rw [Finset.sup_lt_iff (WithBot.bot_lt_coe _)]
  intro i hi
  have hi : i < deg := Finset.mem_range.1 hi
  split
  · rw [degree_X_pow]; exact_mod_cast hi
  · rw [degree_zero]; exact WithBot.bot_lt_coe _

theorem toPoly_coeff (a : BitVec 128) (i : ℕ) (hi : i < deg) :
    (toPoly a).coeff i = if a.getLsbD i then 1 else 0 := by
  rw [toPoly, Polynomial.finsetSum_coeff]
  rw [Finset.sum_eq_single i]
  · split <;> simp
  · intro j _ hj
    split
    · rw [coeff_X_pow]; simp [Ne.symm hj]
    · simp
  · intro h; exact absurd (Finset.mem_range.2 hi) h

theorem toPoly_inj {a b : BitVec 128} (h : toPoly a = toPoly b) : a = b := by
  apply BitVec.eq_of_getLsbD_eq
  intro i hi
  have := congrArg (·.coeff i) h
  simp only [toPoly_coeff _ i (by rw [deg_eq]; exact hi)] at this
  cases ha : a.getLsbD i <;> cases hb : b.getLsbD i <;> simp_all

theorem ev_inj : Function.Injective ev := by
  intro a b h
  rw [ev, ev, AdjoinRoot.mk_eq_mk] at h
  apply toPoly_inj
  rw [← sub_eq_zero]
  by_contra hne
  refine Polynomial.Monic.not_dvd_of_degree_lt poly_monic hne ?_ h
  rw [poly_degree]
  exact lt_of_le_of_lt (Polynomial.degree_sub_le _ _) (max_lt (toPoly_degree a) (toPoly_degree b))

theorem ev_xor (a b : BitVec 128) : ev (a ^^^ b) = ev a + ev b := by
  rw [ev, toPoly_xor, map_add]; rfl

theorem ev_zero : ev 0#128 = 0 := by rw [ev, toPoly_zero, map_zero]

theorem deg_pos : 0 < deg := by rw [deg_eq]; omega

theorem toPoly_one : toPoly 1#128 = 1 := by
  rw [toPoly, Finset.sum_eq_single 0]
  · simp
  · intro i hi h
    have : i < deg := Finset.mem_range.1 hi
    have hf : (1#128).getLsbD i = false := by
      simp [BitVec.getLsbD_one, h]
    rw [hf]; simp
  · intro h; exact absurd (Finset.mem_range.2 deg_pos) h

theorem ev_one : ev 1#128 = 1 := by rw [ev, toPoly_one, map_one]

theorem toPoly_87 : toPoly 0x87#128 = X ^ 7 + X ^ 2 + X + 1 := by
  have : (0x87#128) = (1#128 <<< 7) ^^^ ((1#128 <<< 2) ^^^ ((1#128 <<< 1) ^^^ 1#128)) := by decide
  have hs : ∀ k : ℕ, k < 128 → toPoly (1#128 <<< k) = X ^ k := by
    intro k hk
    rw [toPoly, Finset.sum_eq_single k]
    · simp [hk]
    · intro i hi h
      have : i < deg := Finset.mem_range.1 hi
      have hf : (1#128 <<< k).getLsbD i = false := by
        rw [BitVec.getLsbD_shiftLeft, BitVec.getLsbD_one]
        by_cases h1 : i < k
        · simp [h1]
        · have : i - k ≠ 0 := by omega
          simp [this]
      rw [hf]; simp
    · intro h; exact absurd (Finset.mem_range.2 (by rw [deg_eq]; exact hk)) h
  rw [this, toPoly_xor, toPoly_xor, toPoly_xor, hs 7 (by decide), hs 2 (by decide), hs 1 (by decide), toPoly_one, pow_one, ← add_assoc, ← add_assoc]

theorem shift_sum (f g : ℕ → Bool) (n : ℕ) (h0 : g 0 = false) (h : ∀ i < n, g (i + 1) = f i) :
    (∑ i ∈ Finset.range (n + 1), if g i then (X : (ZMod 2)[X]) ^ i else 0) +
      (if f n then X ^ (n + 1) else 0) =
    X * ∑ i ∈ Finset.range (n + 1), if f i then (X : (ZMod 2)[X]) ^ i else 0 := by
  rw [Finset.mul_sum, Finset.sum_range_succ', Finset.sum_range_succ (n := n), h0]
  simp only [Bool.false_eq_true, if_false, add_zero]
  congr 1
  · refine Finset.sum_congr rfl fun i hi => ?_
    rw [h i (Finset.mem_range.1 hi)]
    split
    · rw [pow_succ']
    · simp
  · split
    · rw [← pow_succ']
    · simp

theorem toPoly_shift (a : BitVec 128) :
    toPoly (a <<< 1) + (if a.getLsbD 127 then X ^ deg else 0) = X * toPoly a := by
  have hd : deg = 127 + 1 := deg_eq
  have h := shift_sum (fun i => a.getLsbD i) (fun i => (a <<< 1).getLsbD i) 127 (by simp) (by
    intro i hi
    rw [BitVec.getLsbD_shiftLeft]; simp; omega)
  rw [← hd] at h
  exact h

theorem poly_low : AdjoinRoot.mk poly (X ^ 7 + X ^ 2 + X + 1) = AdjoinRoot.mk poly (X ^ deg) := by
  rw [AdjoinRoot.mk_eq_mk]
  refine ⟨1, ?_⟩
  rw [mul_one, poly]
  have hw : ∀ v : (ZMod 2)[X], -v = v := fun v => by rw [neg_eq_iff_add_eq_zero]; exact add_self_poly v
  rw [sub_eq_add_neg, hw, add_comm]

theorem ev_mulX (a : BitVec 128) : ev (mulX a) = AdjoinRoot.root poly * ev a := by
  have hX : AdjoinRoot.root poly * ev a = AdjoinRoot.mk poly (X * toPoly a) := by
    rw [ev, map_mul, AdjoinRoot.mk_X]
  rw [hX, ← toPoly_shift, mulX, ev, map_add]
  split
  · rw [toPoly_xor, toPoly_87, map_add, poly_low]
  · rw [map_zero, add_zero]

theorem ev_mulBits (a b : BitVec 128) : ev (mulBits a b) = ev a * ev b := by
  have key : ∀ (n k : ℕ), ev ((List.range' k n).foldr
      (fun i acc => mulX acc ^^^ (if b.getLsbD i then a else 0#128)) 0#128) =
      ev a * ∑ i ∈ Finset.range n, if b.getLsbD (k + i) then (AdjoinRoot.root poly) ^ i else 0 := by
    intro n
    induction n with
    | zero => intro k; simp [ev_zero]
    | succ n ih =>
      intro k
      rw [List.range'_succ, List.foldr_cons, ev_xor, ev_mulX, ih (k + 1), Finset.sum_range_succ', mul_add]
      congr 1
      · rw [mul_left_comm, Finset.mul_sum]
        congr 1
        refine Finset.sum_congr rfl fun i _ => ?_
        rw [show k + 1 + i = k + (i + 1) by omega]
        split
        · rw [pow_succ']
        · simp
      · simp only [add_zero, pow_zero]
        split
        · simp
        · simp [ev_zero]
  have := key deg 0
  rw [mulBits, List.range_eq_range', show List.range' 0 128 = List.range' 0 deg by rw [deg_eq], this]
  congr 1
  rw [ev, toPoly]
  rw [map_sum]
  refine Finset.sum_congr rfl fun i _ => ?_
  rw [Nat.zero_add]
  split
  · rw [map_pow, AdjoinRoot.mk_X]
  · simp

/-- The meaning of an element as a polynomial modulo the polynomial of GHASH. -/
noncomputable def val (a : Gf128) : Quot128 := ev a.bits

theorem val_inj : Function.Injective val := by
  intro a b h
  have := ev_inj h
  cases a; cases b; simp_all

theorem quot_two (a : Quot128) : a + a = 0 := by
  obtain ⟨p, rfl⟩ := AdjoinRoot.mk_surjective a
  rw [← map_add, add_self_poly, map_zero]

theorem nat_two (n : ℕ) : ((n : ℕ) : Quot128) = if n % 2 = 1 then 1 else 0 := by
  induction n with
  | zero => simp
  | succ n ih =>
    rw [Nat.cast_succ, ih]
    rcases Nat.mod_two_eq_zero_or_one n with h | h
    · have : (n + 1) % 2 = 1 := by omega
      simp [h, this]
    · have : (n + 1) % 2 = 0 := by omega
      simp [h, this, quot_two]

theorem neg_quot (a : Quot128) : -a = a := by
  rw [neg_eq_iff_add_eq_zero]; exact quot_two a

theorem int_two (n : ℤ) : ((n : ℤ) : Quot128) = if n % 2 = 1 then 1 else 0 := by
  obtain ⟨m, h | h⟩ := Int.eq_nat_or_neg n
  · subst h
    rw [Int.cast_natCast, nat_two]
    have : ((m : ℤ) % 2 = 1) ↔ m % 2 = 1 := by omega
    simp [this]
  · subst h
    rw [Int.cast_neg, Int.cast_natCast, neg_quot, nat_two]
    have : ((-(m : ℤ)) % 2 = 1) ↔ m % 2 = 1 := by omega
    rw [if_congr this rfl rfl]

/-- The elements form a commutative ring, because they are added and multiplied like the polynomials they
stand for. -/
noncomputable instance : CommRing Gf128 :=
  Function.Injective.commRing val val_inj ev_zero ev_one (fun a b => ev_xor a.bits b.bits)
    (fun a b => ev_mulBits a.bits b.bits) (fun a => (neg_quot _).symm)
    (fun a b => by rw [sub_eq_add_neg, neg_quot]; exact ev_xor a.bits b.bits)
    (fun n a => by
      change val (if n % 2 = 1 then a else 0) = n • val a
      rw [nsmul_eq_mul, nat_two]
      split
      · simp
      · simp [val]; exact ev_zero)
    (fun n a => by
      change val (if n % 2 = 1 then a else 0) = n • val a
      rw [zsmul_eq_mul, int_two]
      split
      · simp
      · simp [val]; exact ev_zero)
    (fun a n => by
      change val (powNat a n) = val a ^ n
      induction n with
      | zero => rw [pow_zero]; exact ev_one
      | succ n ih => rw [pow_succ, ← ih]; exact ev_mulBits _ _)
    (fun n => by
      change val (if n % 2 = 1 then 1 else 0) = _
      rw [nat_two]
      split
      · exact ev_one
      · exact ev_zero)
    (fun n => by
      change val (if n % 2 = 1 then 1 else 0) = _
      rw [int_two]
      split
      · exact ev_one
      · exact ev_zero)

theorem add_self (a : Gf128) : a + a = 0 := by
  change (⟨a.bits ^^^ a.bits⟩ : Gf128) = ⟨0#128⟩
  rw [BitVec.xor_self]

end Gf128

end Tlsn
