import Verif.Base.Basic

/-! # Big-endian integers and xor of byte strings -/

namespace Tlsn

/-- `n.to_be_bytes()` for an integer type of `k` bytes (`n` is reduced modulo `256 ^ k`, as the `as`
casts in front of the calls do). -/
def beBytes : Nat → Nat → Bytes
  | 0, _ => []
  | k + 1, n => UInt8.ofNat (n / 256 ^ k % 256) :: beBytes k n

/-- `from_be_bytes`. -/
def beNat (b : Bytes) : Nat := b.foldl (fun acc x => acc * 256 + x.toNat) 0

/-- `a.iter_mut().zip(b).for_each(|(a, b)| *a ^= b)` for strings of equal length; the model is only used
where the lengths agree or `a` is at most as long as `b`. -/
def xorBytes (a b : Bytes) : Bytes := List.zipWith (· ^^^ ·) a b

@[simp] theorem beBytes_length (k n : Nat) : (beBytes k n).length = k := by
  induction k generalizing n with
  | zero => rfl
  | succ k ih => simp [beBytes, ih]

theorem foldl_be (b : Bytes) (a : Nat) :
    b.foldl (fun acc x => acc * 256 + x.toNat) a = a * 256 ^ b.length + beNat b := by
  induction b generalizing a with
  | nil => simp [beNat]
  | cons x b ih =>
    simp only [beNat, List.foldl_cons, List.length_cons]
    rw [ih, ih (0 * 256 + x.toNat)]
    simp only [Nat.pow_succ, Nat.zero_mul, Nat.zero_add, Nat.add_mul, Nat.mul_assoc, Nat.add_assoc,
      Nat.mul_comm 256]

theorem beNat_cons (x : Byte) (b : Bytes) : beNat (x :: b) = x.toNat * 256 ^ b.length + beNat b := by
  simp only [beNat, List.foldl_cons, Nat.zero_mul, Nat.zero_add]
  exact foldl_be b x.toNat

theorem beNat_append (a b : Bytes) : beNat (a ++ b) = beNat a * 256 ^ b.length + beNat b := by
  simp only [beNat, List.foldl_append]
  exact foldl_be b _

theorem beNat_lt (b : Bytes) : beNat b < 256 ^ b.length := by
  induction b with
  | nil => simp [beNat]
  | cons x b ih =>
    rw [beNat_cons, List.length_cons, Nat.pow_succ]
    have := x.toNat_lt
    calc x.toNat * 256 ^ b.length + beNat b < x.toNat * 256 ^ b.length + 256 ^ b.length := by omega
      _ = (x.toNat + 1) * 256 ^ b.length := by rw [Nat.add_mul, Nat.one_mul]
      _ ≤ 256 * 256 ^ b.length := Nat.mul_le_mul_right _ (by omega)
      _ = 256 ^ b.length * 256 := Nat.mul_comm _ _

theorem beNat_beBytes (k n : Nat) : beNat (beBytes k n) = n % 256 ^ k := by
  induction k with
  | zero => simp [beBytes, beNat, Nat.mod_one]
  | succ k ih =>
    rw [beBytes, beNat_cons, beBytes_length, ih, Nat.pow_succ, Nat.mod_mul]
    have : (UInt8.ofNat (n / 256 ^ k % 256)).toNat = n / 256 ^ k % 256 := by
      simp [UInt8.toNat_ofNat']
    rw [this]
    rw [Nat.add_comm, Nat.mul_comm]

theorem beBytes_inj {k a b : Nat} (ha : a < 256 ^ k) (hb : b < 256 ^ k)
    (h : beBytes k a = beBytes k b) : a = b := by
  have := congrArg beNat h
  rwa [beNat_beBytes, beNat_beBytes, Nat.mod_eq_of_lt ha, Nat.mod_eq_of_lt hb] at this

theorem beNat_inj {a b : Bytes} (hl : a.length = b.length) (h : beNat a = beNat b) : a = b := by
  induction a generalizing b with
  | nil => exact (List.length_eq_zero_iff.1 hl.symm).symm
  | cons x a ih =>
    cases b with
    | nil => cases hl
    | cons y b =>
      have hl' : a.length = b.length := by simpa using hl
      rw [beNat_cons, beNat_cons, hl'] at h
      have h1 := beNat_lt a
      have h2 := beNat_lt b
      rw [hl'] at h1
      have hxy : x.toNat = y.toNat := by
        have p := congrArg (· / 256 ^ b.length) h
        simp only [Nat.mul_comm _ (256 ^ b.length)] at p
        rwa [Nat.mul_add_div (by exact Nat.pow_pos (by decide)),
          Nat.mul_add_div (by exact Nat.pow_pos (by decide)), Nat.div_eq_of_lt h1, Nat.div_eq_of_lt h2,
          Nat.add_zero, Nat.add_zero] at p
      rw [hxy] at h
      rw [UInt8.toNat_inj.1 hxy, ih hl' (by omega)]

theorem beBytes_beNat (b : Bytes) : beBytes b.length (beNat b) = b := by
  refine beNat_inj (by simp) ?_
  rw [beNat_beBytes, Nat.mod_eq_of_lt (beNat_lt b)]

theorem beBytes_mod (k n : Nat) : beBytes k (n % 256 ^ k) = beBytes k n := by
  refine beNat_inj (by simp) ?_
  rw [beNat_beBytes, beNat_beBytes, Nat.mod_mod]

@[simp] theorem xorBytes_length (a b : Bytes) :
    (xorBytes a b).length = min a.length b.length := by
  simp [xorBytes]

theorem xorBytes_cancel (a b : Bytes) (h : a.length ≤ b.length) :
    xorBytes (xorBytes a b) b = a := by
  induction a generalizing b with
  | nil => simp [xorBytes]
  | cons x a ih =>
    cases b with
    | nil => simp at h
    | cons y b =>
      have := ih b (by simpa using h)
      simp only [xorBytes, List.zipWith_cons_cons] at this ⊢
      rw [this, UInt8.xor_assoc, UInt8.xor_self, UInt8.xor_zero]

theorem xorBytes_comm (a b : Bytes) : xorBytes a b = xorBytes b a := by
  simp only [xorBytes]
  rw [List.zipWith_comm]
  congr 1
  funext x y
  exact UInt8.xor_comm _ _

theorem xorBytes_assoc (a b c : Bytes) : xorBytes (xorBytes a b) c = xorBytes a (xorBytes b c) := by
  induction a generalizing b c with
  | nil => simp [xorBytes]
  | cons x a ih =>
    cases b with
    | nil => simp [xorBytes]
    | cons y b =>
      cases c with
      | nil => simp [xorBytes]
      | cons z c =>
        have := ih b c
        simp only [xorBytes, List.zipWith_cons_cons] at this ⊢
        rw [this, UInt8.xor_assoc]

theorem xorBytes_inj {a b k : Bytes} (ha : a.length ≤ k.length) (hb : b.length ≤ k.length)
    (h : xorBytes a k = xorBytes b k) : a = b := by
  rw [← xorBytes_cancel a k ha, h, xorBytes_cancel b k hb]

end Tlsn
