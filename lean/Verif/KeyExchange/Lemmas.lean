import Verif.KeyExchange.Spec
import Verif.KeyExchange.CircuitLemmas
import Mathlib.Tactic.FieldSimp

/-! # Lemmas on the key exchange -/

namespace Tlsn.Kex

open Hmac (VecRef Ref Vm Env)

theorem p256_lt : p256 < 256 ^ 32 := by decide +kernel

theorem fp_val_lt (x : Fp) : x.val < 256 ^ 32 := lt_trans (ZMod.val_lt x) p256_lt

theorem beNat_fpBytes (x : Fp) : beNat (fpBytes x) = x.val := by
  rw [fpBytes, beNat_beBytes, Nat.mod_eq_of_lt (fp_val_lt x)]

@[simp] theorem fpBytes_length (x : Fp) : (fpBytes x).length = 32 := by simp [fpBytes]

theorem fpBytes_inj {x y : Fp} (h : fpBytes x = fpBytes y) : x = y :=
  ZMod.val_injective _ (beBytes_inj (fp_val_lt x) (fp_val_lt y) h)

theorem fpOfLe_fpBytes (x : Fp) : fpOfLe (fpBytes x).reverse = some x := by
  rw [fpOfLe, List.reverse_reverse, beNat_fpBytes, if_pos (ZMod.val_lt x), ZMod.natCast_zmod_val]

theorem decompose_encode {x y : Fp} (h : curve.Nonsingular x y) : decomposePoint (encodePoint (.some x y h)) = .ok (x, y) := by
  simp [encodePoint, decomposePoint, fpOfLe_fpBytes]

theorem beNat_modulus : beNat modulusBytes = p256 := by decide +kernel

theorem x_add {x₁ y₁ x₂ y₂ : Fp} (h₁ : curve.Nonsingular x₁ y₁) (h₂ : curve.Nonsingular x₂ y₂) (hx : x₁ ≠ x₂) :
    xOf ((WeierstrassCurve.Affine.Point.some x₁ y₁ h₁ : Point) + .some x₂ y₂ h₂) =
      some (((y₁ - y₂) / (x₁ - x₂)) ^ 2 - x₁ - x₂) := by
  rw [WeierstrassCurve.Affine.Point.add_of_X_ne hx]
  simp only [xOf, WeierstrassCurve.Affine.slope_of_X_ne hx, WeierstrassCurve.Affine.addX, curve]
  congr 1
  ring

/-- Two lists of two values. -/
theorem two_of_length {us : List Fp} (h : us.length = 2) : ∃ a b, us = [a, b] := by
  match us, h with
  | [a, b], _ => exact ⟨a, b, rfl⟩

theorem one_of_length {us : List Fp} (h : us.length = 1) : ∃ a, us = [a] := by
  match us, h with
  | [a], _ => exact ⟨a, rfl⟩

/-- What the two parties get. -/
theorem derive_eq {C : Conv} (hC : C.Correct) {x₁ y₁ x₂ y₂ : Fp} (h₁ : curve.Nonsingular x₁ y₁)
    (h₂ : curve.Nonsingular x₂ y₂) :
    ∃ al bl af bf : Fp, al * af = y₁ - y₂ ∧ bl * bf = x₁ - x₂ ∧
      (bl = 0 → (deriveXCoordShares C (encodePoint (.some x₁ y₁ h₁)) (encodePoint (.some x₂ y₂ h₂))).1 = .panic) ∧
      (bf = 0 → (deriveXCoordShares C (encodePoint (.some x₁ y₁ h₁)) (encodePoint (.some x₂ y₂ h₂))).2 = .panic) ∧
      (bl ≠ 0 → bf ≠ 0 → ∃ dl df : Fp, dl + df = (al * bl⁻¹ * (al * bl⁻¹)) * (af * bf⁻¹ * (af * bf⁻¹)) ∧
        deriveXCoordShares C (encodePoint (.some x₁ y₁ h₁)) (encodePoint (.some x₂ y₂ h₂)) =
          (.ok (dl + -x₁), .ok (df + -x₂))) := by
  obtain ⟨us, vs, hm, lu, lv, hz⟩ := hC.toMultiplicative [y₁, x₁] [-y₂, -x₂] rfl
  obtain ⟨al, bl, rfl⟩ := two_of_length lu
  obtain ⟨af, bf, rfl⟩ := two_of_length lv
  simp only [List.zipWith_cons_cons, List.zipWith_nil_left, List.cons.injEq, and_true] at hz
  have e1 : xShareStart .leader (encodePoint (.some x₁ y₁ h₁)) = .ok (x₁, [y₁, x₁]) := by
    simp [xShareStart, decompose_encode]
  have e2 : xShareStart .follower (encodePoint (.some x₂ y₂ h₂)) = .ok (x₂, [-y₂, -x₂]) := by
    simp [xShareStart, decompose_encode]
  refine ⟨al, bl, af, bf, by rw [hz.1]; ring, by rw [hz.2]; ring, ?_, ?_, ?_⟩
  · intro hb
    simp only [deriveXCoordShares, e1, e2, hm, xShareMid, if_pos hb, orLost]
  · intro hb
    simp only [deriveXCoordShares, e1, e2, hm, xShareMid, if_pos hb]
    by_cases hl : bl = 0
    · simp only [if_pos hl, orLost]
    · simp only [if_neg hl, orLost]
  · intro hl hf
    obtain ⟨us, vs, ha, lu, lv, hz⟩ := hC.toAdditive [al * bl⁻¹ * (al * bl⁻¹)] [af * bf⁻¹ * (af * bf⁻¹)] rfl
    obtain ⟨dl, rfl⟩ := one_of_length lu
    obtain ⟨df, rfl⟩ := one_of_length lv
    simp only [List.zipWith_cons_cons, List.zipWith_nil_left, List.cons.injEq, and_true] at hz
    exact ⟨dl, df, hz, by simp only [deriveXCoordShares, e1, e2, hm, xShareMid, if_neg hl, if_neg hf, ha, xShareEnd]⟩

/-- The circuit adds shares of field elements. -/
theorem pmsCall_fp (A : AddMod) (a0 b0 a1 b1 : Fp) :
    ∃ e, pmsCall A (fpBytes a0) (fpBytes b0) (fpBytes a1) (fpBytes b1) modulusBytes =
      (fpBytes (a0 + b0), fpBytes (a1 + b1), e) ∧ (e = List.replicate 32 0 ↔ a0 + b0 = a1 + b1) := by
  have key : ∀ a b : Fp, beBytes 32 (bitsNat (A.run (bitsOf (fpBytes a).reverse) (bitsOf (fpBytes b).reverse)
      (bitsOf modulusBytes.reverse))) = fpBytes (a + b) := by
    intro a b
    have ha : bitsNat (bitsOf (fpBytes a).reverse) = a.val := by rw [bitsNat_bitsOf_reverse, beNat_fpBytes]
    have hb : bitsNat (bitsOf (fpBytes b).reverse) = b.val := by rw [bitsNat_bitsOf_reverse, beNat_fpBytes]
    have hm : bitsNat (bitsOf modulusBytes.reverse) = p256 := by rw [bitsNat_bitsOf_reverse, beNat_modulus]
    rw [A.spec _ _ _ (by rw [bitsOf_length, List.length_reverse, fpBytes_length])
      (by rw [bitsOf_length, List.length_reverse, fpBytes_length])
      (by rw [bitsOf_length, List.length_reverse]; rfl)
      (by rw [ha, hm]; exact ZMod.val_lt a) (by rw [hb, hm]; exact ZMod.val_lt b), ha, hb, hm, fpBytes, ZMod.val_add]
  have hc := pmsCall_check A (fpBytes a0) (fpBytes b0) (fpBytes a1) (fpBytes b1) modulusBytes
  rw [pmsCall_eq, key, key] at hc ⊢
  exact ⟨_, rfl, hc.trans ⟨fpBytes_inj, fun h => by rw [h]⟩⟩

end Tlsn.Kex
