import Verif.Base.RangeSet

/-!
# BCS, the canonical serialization (crates/attestation/src/serialize.rs:9-19, `bcs::to_bytes`)

The `bcs` crate is a dependency; its format is modelled here: ULEB128 lengths and enum tags,
little-endian integers, fields in declaration order.  `bcs::to_bytes` fails for sequences of 2^31 or
more elements, where the code panics (`unwrap`); the model encodes them all the same.
-/

namespace Tlsn

/-- ULEB128, used by BCS for sequence lengths and enum variants. -/
def uleb (n : Nat) : Bytes :=
  if n < 128 then [UInt8.ofNat n] else UInt8.ofNat (n % 128 + 128) :: uleb (n / 128)
  termination_by n
  decreasing_by omega

/-- `k`-byte little-endian integer (`u32`: 4, `u64` and `usize`: 8). -/
def leBytes : Nat → Nat → Bytes
  | 0, _ => []
  | k + 1, n => UInt8.ofNat (n % 256) :: leBytes k (n / 256)

/-- A `Vec<u8>`. -/
def bcsBytes (l : Bytes) : Bytes := uleb l.length ++ l

/-- A sequence. -/
def bcsList {α : Type} (enc : α → Bytes) (l : List α) : Bytes := uleb l.length ++ l.flatMap enc

/-- An encoding is self-delimiting and injective on the values satisfying `P`: whatever follows, the
value can be read back. -/
def PrefixInj {α : Type} (P : α → Prop) (enc : α → Bytes) : Prop :=
  ∀ x y, P x → P y → ∀ r s, enc x ++ r = enc y ++ s → x = y ∧ r = s

theorem PrefixInj.inj {α : Type} {P : α → Prop} {enc : α → Bytes} (h : PrefixInj P enc) {x y : α}
    (hx : P x) (hy : P y) (e : enc x = enc y) : x = y :=
  (h x y hx hy [] [] (by simpa using e)).1

theorem uint8_ofNat_inj {a b : Nat} (ha : a < 256) (hb : b < 256)
    (h : UInt8.ofNat a = UInt8.ofNat b) : a = b := by
  have := congrArg UInt8.toNat h
  rw [UInt8.toNat_ofNat', UInt8.toNat_ofNat'] at this
  omega

theorem prefixInj_uleb : PrefixInj (fun _ => True) uleb := by
  intro x
  induction x using Nat.strongRecOn with
  | _ x ih =>
    intro y _ _ r s h
    rw [uleb.eq_def x, uleb.eq_def y] at h
    split at h <;> split at h
    · rename_i hx hy
      simp only [List.cons_append, List.nil_append, List.cons.injEq] at h
      exact ⟨uint8_ofNat_inj (by omega) (by omega) h.1, h.2⟩
    · rename_i hx hy
      simp only [List.cons_append, List.nil_append, List.cons.injEq] at h
      have := uint8_ofNat_inj (by omega) (by omega) h.1
      omega
    · rename_i hx hy
      simp only [List.cons_append, List.nil_append, List.cons.injEq] at h
      have := uint8_ofNat_inj (by omega) (by omega) h.1
      omega
    · rename_i hx hy
      simp only [List.cons_append, List.cons.injEq] at h
      have h1 := uint8_ofNat_inj (by omega) (by omega) h.1
      obtain ⟨h2, h3⟩ := ih (x / 128) (by omega) (y / 128) trivial trivial r s h.2
      exact ⟨by omega, h3⟩

theorem leBytes_length (k n : Nat) : (leBytes k n).length = k := by
  induction k generalizing n with
  | zero => rfl
  | succ k ih => simp [leBytes, ih]

theorem prefixInj_leBytes (k : Nat) : PrefixInj (fun n => n < 256 ^ k) (leBytes k) := by
  induction k with
  | zero =>
    intro x y hx hy r s h
    simp only [Nat.pow_zero] at hx hy
    exact ⟨by omega, by simpa [leBytes] using h⟩
  | succ k ih =>
    intro x y hx hy r s h
    simp only [leBytes, List.cons_append, List.cons.injEq] at h
    have h1 := uint8_ofNat_inj (by omega) (by omega) h.1
    simp only [Nat.pow_succ] at hx hy
    obtain ⟨h2, h3⟩ := ih (x / 256) (y / 256) (Nat.div_lt_of_lt_mul (by omega))
      (Nat.div_lt_of_lt_mul (by omega)) r s h.2
    exact ⟨by omega, h3⟩

theorem prefixInj_bcsBytes : PrefixInj (fun _ => True) bcsBytes := by
  intro x y _ _ r s h
  simp only [bcsBytes, List.append_assoc] at h
  obtain ⟨h1, h2⟩ := prefixInj_uleb _ _ trivial trivial _ _ h
  exact List.append_inj h2 h1

theorem prefixInj_flatMap {α : Type} {P : α → Prop} {enc : α → Bytes} (he : PrefixInj P enc)
    (x y : List α) (hl : x.length = y.length) (hx : ∀ a ∈ x, P a) (hy : ∀ a ∈ y, P a) (r s : Bytes)
    (h : x.flatMap enc ++ r = y.flatMap enc ++ s) : x = y ∧ r = s := by
  induction x generalizing y with
  | nil =>
    match y, hl with
    | [], _ => exact ⟨rfl, h⟩
  | cons a t ih =>
    match y, hl with
    | b :: u, hl =>
      simp only [List.flatMap_cons, List.append_assoc] at h
      obtain ⟨rfl, h2⟩ := he a b (hx a (by simp)) (hy b (by simp)) _ _ h
      obtain ⟨rfl, h3⟩ := ih u (by simpa using hl) (fun c hc => hx c (by simp [hc]))
        (fun c hc => hy c (by simp [hc])) h2
      exact ⟨rfl, h3⟩

theorem prefixInj_bcsList {α : Type} {P : α → Prop} {enc : α → Bytes} (he : PrefixInj P enc) :
    PrefixInj (fun l => ∀ a ∈ l, P a) (bcsList enc) := by
  intro x y hx hy r s h
  simp only [bcsList, List.append_assoc] at h
  obtain ⟨h1, h2⟩ := prefixInj_uleb _ _ trivial trivial _ _ h
  exact prefixInj_flatMap he x y h1 hx hy r s h2

/-- Two encodings one after the other. -/
theorem PrefixInj.pair {α β γ : Type} {P : α → Prop} {Q : β → Prop} {R : γ → Prop} {f : α → Bytes}
    {g : β → Bytes} (hf : PrefixInj P f) (hg : PrefixInj Q g) (a : γ → α) (b : γ → β)
    (hR : ∀ c, R c → P (a c) ∧ Q (b c)) (hinj : ∀ c d, a c = a d → b c = b d → c = d) :
    PrefixInj R (fun c => f (a c) ++ g (b c)) := by
  intro x y hx hy r s h
  simp only [List.append_assoc] at h
  obtain ⟨h1, h2⟩ := hf _ _ (hR x hx).1 (hR y hy).1 _ _ h
  obtain ⟨h3, h4⟩ := hg _ _ (hR x hx).2 (hR y hy).2 _ _ h2
  exact ⟨hinj x y h1 h3, h4⟩

theorem prefixInj_byte : PrefixInj (fun _ => True) (fun b : Byte => [b]) := by
  intro x y _ _ r s h
  simpa using h

theorem prefixInj_vector (n : Nat) :
    PrefixInj (fun _ => True) (fun v : Vector Byte n => v.toList) := by
  intro x y _ _ r s h
  obtain ⟨h1, h2⟩ := List.append_inj h (by simp)
  exact ⟨Vector.toList_inj.1 h1, h2⟩

end Tlsn
