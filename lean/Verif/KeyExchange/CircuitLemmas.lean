import Verif.KeyExchange.Circuit
import Mathlib.Tactic.NormNum

/-! # What the circuit computes -/

namespace Tlsn.Kex

theorem bitsNat_append (a b : List Bool) : bitsNat (a ++ b) = bitsNat a + 2 ^ a.length * bitsNat b := by
  induction a with
  | nil => simp [bitsNat]
  | cons x a ih =>
    simp only [List.cons_append, bitsNat, ih, List.length_cons, Nat.pow_succ]
    rw [Nat.mul_add, ← Nat.mul_assoc, Nat.mul_comm 2 (2 ^ a.length)]
    omega

theorem bitsNat_lt (a : List Bool) : bitsNat a < 2 ^ a.length := by
  induction a with
  | nil => simp [bitsNat]
  | cons x a ih =>
    simp only [bitsNat, List.length_cons, Nat.pow_succ]
    cases x <;> simp <;> omega

theorem bitsNat_inj {a b : List Bool} (hl : a.length = b.length) (h : bitsNat a = bitsNat b) : a = b := by
  induction a generalizing b with
  | nil => cases b with
    | nil => rfl
    | cons => simp at hl
  | cons x a ih => cases b with
    | nil => simp at hl
    | cons y b =>
      simp only [bitsNat] at h
      simp only [List.length_cons, Nat.add_right_cancel_iff] at hl
      have hx : x = y := by cases x <;> cases y <;> simp at h ⊢ <;> omega
      subst hx
      rw [ih hl (by omega)]

@[simp] theorem byteBits_length (b : Byte) : (byteBits b).length = 8 := by simp [byteBits]

theorem bitsNat_byteBits (b : Byte) : bitsNat (byteBits b) = b.toNat := by
  have h : ∀ n < 256, bitsNat ((List.range 8).map fun i => n.testBit i) = n := by decide +kernel
  exact h b.toNat b.toNat_lt

theorem byteBits_bitsNat (c : List Bool) (h : c.length = 8) : byteBits (UInt8.ofNat (bitsNat c)) = c := by
  have hlt := bitsNat_lt c
  rw [h] at hlt
  refine bitsNat_inj (by simp [h]) ?_
  rw [bitsNat_byteBits]
  simp only [UInt8.toNat_ofNat']
  exact Nat.mod_eq_of_lt hlt

theorem chunks8_append (c l : List Bool) (h : c.length = 8) : chunks8 (c ++ l) = c :: chunks8 l := by
  match c, h with
  | [_, _, _, _, _, _, _, _], _ => rfl

theorem chunks8_flatten (cs : List (List Bool)) (h : ∀ c ∈ cs, c.length = 8) : chunks8 cs.flatten = cs := by
  induction cs with
  | nil => rfl
  | cons c cs ih =>
    rw [List.flatten_cons, chunks8_append _ _ (h c (by simp)), ih fun d hd => h d (by simp [hd])]

theorem bitsOf_eq (bs : Bytes) : bitsOf bs = (bs.map byteBits).flatten := by simp [bitsOf, List.flatMap_def]

theorem chunks8_bitsOf (bs : Bytes) : chunks8 (bitsOf bs) = bs.map byteBits := by
  rw [bitsOf_eq, chunks8_flatten]
  intro c hc
  obtain ⟨b, -, rfl⟩ := List.mem_map.1 hc
  simp

theorem bytesOf_bitsOf (bs : Bytes) : bytesOf (bitsOf bs) = bs := by
  rw [bytesOf, chunks8_bitsOf, List.map_map]
  conv_rhs => rw [← List.map_id bs]
  refine List.map_congr_left fun b _ => ?_
  simp [bitsNat_byteBits]

theorem bitsOf_length (bs : Bytes) : (bitsOf bs).length = 8 * bs.length := by
  induction bs with
  | nil => rfl
  | cons b bs ih =>
    have : bitsOf (b :: bs) = byteBits b ++ bitsOf bs := rfl
    rw [this, List.length_append, ih, byteBits_length, List.length_cons]; omega

theorem toLittleEndian_bitsOf (bs : Bytes) : toLittleEndian (bitsOf bs) = bitsOf bs.reverse := by
  rw [toLittleEndian, chunks8_bitsOf, bitsOf_eq, List.map_reverse]

theorem bitsNat_bitsOf_reverse (bs : Bytes) : bitsNat (bitsOf bs.reverse) = beNat bs := by
  induction bs with
  | nil => rfl
  | cons b bs ih =>
    have : bitsOf (b :: bs).reverse = bitsOf bs.reverse ++ byteBits b := by
      simp [bitsOf]
    rw [this, bitsNat_append, ih, bitsNat_byteBits, bitsOf_length, beNat_cons, List.length_reverse, Nat.pow_mul]
    rw [Nat.add_comm, Nat.mul_comm]

/-- Whole bytes of wires come from bytes. -/
theorem exists_bytes (n : Nat) : ∀ w : List Bool, w.length = 8 * n → ∃ bs : Bytes, bs.length = n ∧ bitsOf bs = w := by
  induction n with
  | zero => intro w h; exact ⟨[], rfl, by simpa [bitsOf] using (List.length_eq_zero_iff.1 h).symm⟩
  | succ n ih =>
    intro w h
    obtain ⟨bs, hl, hb⟩ := ih (w.drop 8) (by rw [List.length_drop, h]; omega)
    refine ⟨UInt8.ofNat (bitsNat (w.take 8)) :: bs, by simp [hl], ?_⟩
    have : bitsOf (UInt8.ofNat (bitsNat (w.take 8)) :: bs) =
        byteBits (UInt8.ofNat (bitsNat (w.take 8))) ++ bitsOf bs := rfl
    rw [this, hb, byteBits_bitsNat _ (by rw [List.length_take, h]; omega), List.take_append_drop]

/-- Turning wires around gives the big-endian bytes of the number on them. -/
theorem bytesOf_toLittleEndian (w : List Bool) (h : w.length = 256) :
    bytesOf (toLittleEndian w) = beBytes 32 (bitsNat w) := by
  obtain ⟨bs, hl, rfl⟩ := exists_bytes 32 w h
  rw [toLittleEndian_bitsOf, bytesOf_bitsOf]
  have h1 := beBytes_beNat bs.reverse
  have h2 := bitsNat_bitsOf_reverse bs.reverse
  rw [List.reverse_reverse] at h2
  rw [List.length_reverse, hl] at h1
  rw [h2, h1]

theorem toLittleEndian_length (w : List Bool) (h : w.length = 256) : (toLittleEndian w).length = 256 := by
  obtain ⟨bs, hl, rfl⟩ := exists_bytes 32 w h
  rw [toLittleEndian_bitsOf, bitsOf_length, List.length_reverse, hl]

/-- The exclusive or of two numbers is zero exactly if they are equal. -/
theorem bytesOf_xor_zero {a b : List Bool} (ha : a.length = 256) (hb : b.length = 256) :
    bytesOf (List.zipWith xor a b) = List.replicate 32 0 ↔ bitsNat a = bitsNat b := by
  have hz : bitsOf (List.replicate 32 0) = List.replicate 256 false := by decide +kernel
  obtain ⟨bs, hl, hbs⟩ := exists_bytes 32 (List.zipWith xor a b) (by simp [ha, hb])
  rw [← hbs, bytesOf_bitsOf]
  have h1 : bs = List.replicate 32 0 ↔ List.zipWith xor a b = List.replicate 256 false := by
    constructor
    · rintro rfl; rw [← hbs, hz]
    · intro h
      rw [← bytesOf_bitsOf bs, hbs, h, ← hz, bytesOf_bitsOf]
  rw [h1]
  constructor
  · intro h
    congr 1
    refine List.ext_getElem (by rw [ha, hb]) fun i h1 h2 => ?_
    have hi : i < (List.zipWith xor a b).length := by simp [h1, h2]
    have : (List.zipWith xor a b)[i] = false := by simp only [h, List.getElem_replicate]
    simpa using this
  · intro h
    have := bitsNat_inj (ha.trans hb.symm) h
    subst this
    refine List.eq_replicate_iff.2 ⟨by rw [List.length_zipWith, ha, Nat.min_self], fun b hb => ?_⟩
    obtain ⟨i, hi, rfl⟩ := List.getElem_of_mem hb
    simp only [List.getElem_zipWith, Bool.xor_self]

/-- The circuit on big-endian arrays. -/
theorem pmsCall_eq (A : AddMod) (a0 b0 a1 b1 m : Bytes) :
    pmsCall A a0 b0 a1 b1 m =
      (beBytes 32 (bitsNat (A.run (bitsOf a0.reverse) (bitsOf b0.reverse) (bitsOf m.reverse))),
       beBytes 32 (bitsNat (A.run (bitsOf a1.reverse) (bitsOf b1.reverse) (bitsOf m.reverse))),
       bytesOf (List.zipWith xor (A.run (bitsOf a0.reverse) (bitsOf b0.reverse) (bitsOf m.reverse))
         (A.run (bitsOf a1.reverse) (bitsOf b1.reverse) (bitsOf m.reverse)))) := by
  simp only [pmsCall, pmsCircuit, toLittleEndian_bitsOf]
  generalize h0 : A.run (bitsOf a0.reverse) (bitsOf b0.reverse) (bitsOf m.reverse) = p0
  generalize h1 : A.run (bitsOf a1.reverse) (bitsOf b1.reverse) (bitsOf m.reverse) = p1
  have l0 : p0.length = 256 := by rw [← h0, A.length]
  have l1 : p1.length = 256 := by rw [← h1, A.length]
  have t0 := toLittleEndian_length p0 l0
  have t1 := toLittleEndian_length p1 l1
  have e0 : (toLittleEndian p0 ++ toLittleEndian p1 ++ List.zipWith xor p0 p1).take 256 = toLittleEndian p0 := by
    rw [List.append_assoc, ← t0, List.take_left]
  have e1 : ((toLittleEndian p0 ++ toLittleEndian p1 ++ List.zipWith xor p0 p1).drop 256).take 256 =
      toLittleEndian p1 := by
    rw [List.append_assoc]
    conv_lhs => rw [show (256 : Nat) = (toLittleEndian p0).length from t0.symm, List.drop_left]
    rw [t0, ← t1, List.take_left]
  have e2 : ((toLittleEndian p0 ++ toLittleEndian p1 ++ List.zipWith xor p0 p1).drop 512).take 256 =
      List.zipWith xor p0 p1 := by
    rw [show (512 : Nat) = (toLittleEndian p0 ++ toLittleEndian p1).length by rw [List.length_append, t0, t1],
      List.drop_left]
    exact List.take_of_length_le (by simp [l0, l1])
  rw [e0, e1, e2, bytesOf_toLittleEndian p0 l0, bytesOf_toLittleEndian p1 l1]

/-- The check is zero exactly if the two results are equal. -/
theorem pmsCall_check (A : AddMod) (a0 b0 a1 b1 m : Bytes) :
    (pmsCall A a0 b0 a1 b1 m).2.2 = List.replicate 32 0 ↔ (pmsCall A a0 b0 a1 b1 m).1 = (pmsCall A a0 b0 a1 b1 m).2.1 := by
  rw [pmsCall_eq]
  rw [bytesOf_xor_zero (A.length _ _ _) (A.length _ _ _)]
  refine ⟨fun h => by rw [h], fun h => beBytes_inj ?_ ?_ h⟩ <;>
  · have := bitsNat_lt (A.run (bitsOf a0.reverse) (bitsOf b0.reverse) (bitsOf m.reverse))
    have h2 := bitsNat_lt (A.run (bitsOf a1.reverse) (bitsOf b1.reverse) (bitsOf m.reverse))
    rw [A.length] at this h2
    rw [show (256 : Nat) ^ 32 = 2 ^ 256 by norm_num]
    assumption

end Tlsn.Kex
