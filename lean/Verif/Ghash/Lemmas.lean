import Verif.Ghash.Spec
import Mathlib.Tactic.Ring
import Mathlib.Data.List.GetD

/-! # Lemmas about GHASH -/

namespace Tlsn

/-! ## Bytes and field elements -/

theorem nat_xor_split (k x y r s : Nat) (hr : r < 2 ^ k) (hs : s < 2 ^ k) :
    (x * 2 ^ k + r) ^^^ (y * 2 ^ k + s) = (x ^^^ y) * 2 ^ k + (r ^^^ s) := by
  apply Nat.eq_of_testBit_eq
  intro i
  rw [Nat.testBit_xor, Nat.mul_comm x, Nat.mul_comm y, Nat.mul_comm (x ^^^ y),
    Nat.testBit_two_pow_mul_add _ hr, Nat.testBit_two_pow_mul_add _ hs,
    Nat.testBit_two_pow_mul_add _ (Nat.xor_lt_two_pow hr hs)]
  split <;> simp [Nat.testBit_xor]

theorem beNat_xor {a b : Bytes} (h : a.length = b.length) : beNat (xorBytes a b) = beNat a ^^^ beNat b := by
  induction a generalizing b with
  | nil => cases b <;> simp_all [xorBytes, beNat]
  | cons x a ih =>
    cases b with
    | nil => cases h
    | cons y b =>
      have h' : a.length = b.length := by simpa using h
      have hx : xorBytes (x :: a) (y :: b) = (x ^^^ y) :: xorBytes a b := rfl
      have h1 := beNat_lt a
      have h2 := beNat_lt b
      have hp : (256 : Nat) ^ b.length = 2 ^ (8 * b.length) := by rw [Nat.pow_mul]
      rw [hx, beNat_cons, beNat_cons, beNat_cons, ih h', xorBytes_length, h', Nat.min_self, UInt8.toNat_xor, hp]
      rw [h', hp] at h1
      rw [hp] at h2
      rw [nat_xor_split _ _ _ _ _ h1 h2]

theorem Gf128.ofBytes_xor {a b : Bytes} (ha : a.length = 16) (hb : b.length = 16) :
    Gf128.ofBytes (xorBytes a b) = Gf128.ofBytes a + Gf128.ofBytes b := by
  change (⟨_⟩ : Gf128) = ⟨(BitVec.ofNat 128 (beNat a)).reverse ^^^ (BitVec.ofNat 128 (beNat b)).reverse⟩
  congr 1
  apply BitVec.eq_of_getLsbD_eq
  intro i hi
  rw [BitVec.getLsbD_xor, BitVec.getLsbD_reverse, BitVec.getLsbD_reverse, BitVec.getLsbD_reverse,
    beNat_xor (by omega), BitVec.ofNat_xor, BitVec.getMsbD_xor]

theorem Gf128.ofBytes_toBytes (a : Gf128) : Gf128.ofBytes a.toBytes = a := by
  cases a with
  | mk a =>
    simp only [Gf128.ofBytes, Gf128.toBytes]
    congr 1
    rw [beNat_beBytes]
    apply BitVec.eq_of_getLsbD_eq
    intro i hi
    have : a.reverse.toNat % 256 ^ 16 = a.reverse.toNat := Nat.mod_eq_of_lt a.reverse.isLt
    rw [this, BitVec.ofNat_toNat, BitVec.setWidth_eq, BitVec.getLsbD_reverse, BitVec.getMsbD_reverse]

@[simp] theorem Gf128.toBytes_length (a : Gf128) : a.toBytes.length = 16 := by simp [Gf128.toBytes]

theorem Gf128.toBytes_ofBytes {b : Bytes} (hb : b.length = 16) : (Gf128.ofBytes b).toBytes = b := by
  simp only [Gf128.ofBytes, Gf128.toBytes]
  have : ((BitVec.ofNat 128 (beNat b)).reverse).reverse = BitVec.ofNat 128 (beNat b) := by
    apply BitVec.eq_of_getLsbD_eq
    intro i hi
    rw [BitVec.getLsbD_reverse, BitVec.getMsbD_reverse]
  rw [this, BitVec.toNat_ofNat]
  have hlt := beNat_lt b
  rw [hb] at hlt
  have h2 : beNat b % 2 ^ 128 = beNat b := Nat.mod_eq_of_lt hlt
  rw [h2]
  have := beBytes_beNat b
  rwa [hb] at this

theorem Gf128.toBytes_add (a b : Gf128) : (a + b).toBytes = xorBytes a.toBytes b.toBytes := by
  have h : (xorBytes a.toBytes b.toBytes).length = 16 := by simp
  rw [← Gf128.toBytes_ofBytes h, Gf128.ofBytes_xor (by simp) (by simp), Gf128.ofBytes_toBytes,
    Gf128.ofBytes_toBytes]

/-! ## Powers -/

theorem scanPowers_eq (m : Gf128) (n : Nat) (acc : Gf128) :
    scanPowers m n acc = (List.range n).map fun i => acc * m ^ i := by
  induction n generalizing acc with
  | zero => rfl
  | succ n ih =>
    rw [scanPowers, ih, List.range_succ_eq_map, List.map_cons, List.map_map, pow_zero, mul_one]
    refine List.cons_eq_cons.2 ⟨rfl, List.map_congr_left fun i _ => ?_⟩
    change acc * m * m ^ i = acc * m ^ (i + 1)
    rw [pow_succ', mul_assoc]

theorem stepBy2_range {α : Type} (f : Nat → α) (n k : Nat) :
    stepBy2 ((List.range' k (2 * n)).map f) = (List.range n).map fun i => f (k + 2 * i) := by
  induction n generalizing k with
  | zero => rfl
  | succ n ih =>
    rw [show 2 * (n + 1) = 2 * n + 1 + 1 by omega, List.range'_succ, List.range'_succ, List.map_cons,
      List.map_cons, stepBy2, ih, List.range_succ_eq_map, List.map_cons, List.map_map]
    simp only [Nat.mul_zero, Nat.add_zero, List.cons.injEq, true_and]
    refine List.map_congr_left fun i _ => ?_
    simp only [Function.comp]
    congr 1; omega

theorem oddShares_eq (m : Gf128) : oddShares m = (List.range 512).map fun t => m ^ (2 * t + 3) := by
  have h : (scanPowers m maxPower m).drop 2 = (List.range' 2 (2 * 512)).map fun i => m * m ^ i := by
    rw [scanPowers_eq, ← List.map_drop, List.range_eq_range', List.drop_range']
    rfl
  rw [oddShares, h, stepBy2_range]
  refine List.map_congr_left fun t _ => ?_
  rw [← pow_succ']; congr 1; omega

theorem add_sq_gf (a b : Gf128) : (a + b) * (a + b) = a * a + b * b := by
  have h := Gf128.add_self (a * b)
  have : (a + b) * (a + b) = a * a + b * b + (a * b + a * b) := by ring
  rw [this, h, add_zero]

/-- The joint invariant of `compute_shares` on both sides. -/
theorem shares_loop {kL kF mL mF : Gf128} {oL oF : List Gf128} (hm : mL * mF = kL + kF)
    (hlL : oL.length = 512) (hlF : oF.length = 512)
    (ho : ∀ t, t < 512 → oL.getD t 0 + oF.getD t 0 = mL ^ (2 * t + 3) * mF ^ (2 * t + 3)) (n : Nat)
    (hn : n ≤ 1025) :
    ∃ sL sF, (List.range' 2 n).foldlM (shareStep oL) ([kL], 0) = some (sL, n / 2) ∧
      (List.range' 2 n).foldlM (shareStep oF) ([kF], 0) = some (sF, n / 2) ∧
      sL.length = n + 1 ∧ sF.length = n + 1 ∧
      ∀ j, j < n + 1 → sL.getD j 0 + sF.getD j 0 = (kL + kF) ^ (j + 1) := by
  induction n with
  | zero =>
    refine ⟨[kL], [kF], rfl, rfl, rfl, rfl, fun j hj => ?_⟩
    have : j = 0 := by omega
    subst this
    simp
  | succ n ih =>
    obtain ⟨sL, sF, h1, h2, h3, h4, h5⟩ := ih (by omega)
    have hr : List.range' 2 (n + 1) = List.range' 2 n ++ [n + 2] := by
      rw [List.range'_concat]; congr 2; omega
    have extend : ∀ xL xF : Gf128, xL + xF = (kL + kF) ^ (n + 2) → ∀ j, j < n + 1 + 1 →
        (sL ++ [xL]).getD j 0 + (sF ++ [xF]).getD j 0 = (kL + kF) ^ (j + 1) := by
      intro xL xF hx j hj
      by_cases hj' : j < n + 1
      · rw [List.getD_append _ _ _ _ (by omega), List.getD_append _ _ _ _ (by omega)]
        exact h5 j hj'
      · have : j = n + 1 := by omega
        subst this
        rw [List.getD_append_right _ _ _ _ (by omega), List.getD_append_right _ _ _ _ (by omega), h3, h4]
        simpa using hx
    rw [hr]
    simp only [List.foldlM_append, h1, h2, Option.bind_eq_bind, Option.bind_some, List.foldlM_cons,
      List.foldlM_nil]
    by_cases hp : (n + 2) % 2 = 0
    · have hi : (n + 2) / 2 - 1 < n + 1 := by omega
      have eL : sL[(n + 2) / 2 - 1]? = some (sL.getD ((n + 2) / 2 - 1) 0) := by
        rw [List.getD_eq_getElem?_getD, List.getElem?_eq_getElem (by omega)]; rfl
      have eF : sF[(n + 2) / 2 - 1]? = some (sF.getD ((n + 2) / 2 - 1) 0) := by
        rw [List.getD_eq_getElem?_getD, List.getElem?_eq_getElem (by omega)]; rfl
      refine ⟨sL ++ [sL.getD ((n + 2) / 2 - 1) 0 * sL.getD ((n + 2) / 2 - 1) 0],
        sF ++ [sF.getD ((n + 2) / 2 - 1) 0 * sF.getD ((n + 2) / 2 - 1) 0], ?_, ?_, by simp [h3], by simp [h4],
        extend _ _ ?_⟩
      · simp only [shareStep, hp, if_true, eL, Option.map_some, Option.bind_some]
        have : (n + 1) / 2 = n / 2 := by omega
        rw [this]; rfl
      · simp only [shareStep, hp, if_true, eF, Option.map_some, Option.bind_some]
        have : (n + 1) / 2 = n / 2 := by omega
        rw [this]; rfl
      · rw [← add_sq_gf, h5 _ hi, ← pow_add]
        congr 1; omega
    · have hi : n / 2 < 512 := by omega
      have eL : oL[n / 2]? = some (oL.getD (n / 2) 0) := by
        rw [List.getD_eq_getElem?_getD, List.getElem?_eq_getElem (by omega)]; rfl
      have eF : oF[n / 2]? = some (oF.getD (n / 2) 0) := by
        rw [List.getD_eq_getElem?_getD, List.getElem?_eq_getElem (by omega)]; rfl
      refine ⟨sL ++ [oL.getD (n / 2) 0], sF ++ [oF.getD (n / 2) 0], ?_, ?_, by simp [h3], by simp [h4],
        extend _ _ ?_⟩
      · simp only [shareStep, hp, if_false, eL, Option.map_some, Option.bind_some]
        have : (n + 1) / 2 = n / 2 + 1 := by omega
        rw [this]; rfl
      · simp only [shareStep, hp, if_false, eF, Option.map_some, Option.bind_some]
        have : (n + 1) / 2 = n / 2 + 1 := by omega
        rw [this]; rfl
      · rw [ho _ hi, ← mul_pow, hm]
        congr 1; omega

/-! ## Sums -/

theorem dotFrom_acc (acc : Gf128) (xs ss : List Gf128) : dotFrom acc xs ss = acc + dotFrom 0 xs ss := by
  induction xs generalizing acc ss with
  | nil => simp [dotFrom]
  | cons x xs ih =>
    cases ss with
    | nil => simp [dotFrom]
    | cons s ss =>
      have e : ∀ a, dotFrom a (x :: xs) (s :: ss) = dotFrom (a + x * s) xs ss := fun a => rfl
      rw [e, e, ih (acc + x * s), ih (0 + x * s)]; ring

theorem dotFrom_add (xs sL sF : List Gf128) (h : sL.length = sF.length) :
    dotFrom 0 xs sL + dotFrom 0 xs sF = dotFrom 0 xs (List.zipWith (· + ·) sL sF) := by
  induction xs generalizing sL sF with
  | nil => simp [dotFrom]
  | cons x xs ih =>
    cases sL with
    | nil => cases sF with
      | nil => simp [dotFrom]
      | cons => cases h
    | cons a sL => cases sF with
      | nil => cases h
      | cons b sF =>
        have e : ∀ (s : Gf128) ss, dotFrom 0 (x :: xs) (s :: ss) = x * s + dotFrom 0 xs ss := by
          intro s ss
          change dotFrom (0 + x * s) xs ss = _
          rw [dotFrom_acc, zero_add]
        rw [List.zipWith_cons_cons, e, e, e, ← ih sL sF (by simpa using h)]; ring

/-- The descending powers `h^m, ..., h^1`. -/
def descPowers (h : Gf128) (m : Nat) : List Gf128 := ((List.range m).map fun j => h ^ (j + 1)).reverse

theorem descPowers_succ (h : Gf128) (m : Nat) : descPowers h (m + 1) = h ^ (m + 1) :: descPowers h m := by
  simp [descPowers, List.range_succ]

theorem horner_eq (h : Gf128) (xs : List Gf128) (y : Gf128) :
    xs.foldl (fun y x => (y + x) * h) y = y * h ^ xs.length + dotFrom 0 xs (descPowers h xs.length) := by
  induction xs generalizing y with
  | nil => simp [dotFrom]
  | cons x xs ih =>
    rw [List.foldl_cons, ih, List.length_cons, descPowers_succ]
    have e : dotFrom 0 (x :: xs) (h ^ (xs.length + 1) :: descPowers h xs.length) =
        x * h ^ (xs.length + 1) + dotFrom 0 xs (descPowers h xs.length) := by
      change dotFrom (0 + x * _) xs _ = _
      rw [dotFrom_acc, zero_add]
    rw [e, pow_succ]; ring

theorem blocksOf_length (d : Bytes) : (blocksOf d).length = blockCount d.length := by simp [blocksOf]

theorem reverse_drop_powers (h : Gf128) (n m : Nat) (hm : m ≤ n) :
    (((List.range n).map fun j => h ^ (j + 1)).reverse).drop (n - m) = descPowers h m := by
  rw [descPowers, List.drop_reverse]
  congr 1
  rw [List.length_map, List.length_range, show n - (n - m) = m by omega, ← List.map_take, List.take_range,
    Nat.min_eq_left hm]

end Tlsn
