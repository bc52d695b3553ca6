import Verif.ClientAuth.Spec
import Verif.Client.Props
import Verif.Pki.EndToEnd

/-! # Keys, certificate requests and configurations: C109, C110, C111 -/

namespace Tlsn.ClientAuth

open Pki (WebPki KeyAlg SigId SchemeIs KeyMakes Signed CertOk)
open Client (Ev Session transcriptOf significant)

/-! ## DER -/

theorem asn1LenLoop_eq (c : Byte) (bytes : Bytes) (left : Nat) :
    ∃ d : Bytes, asn1LenLoop c bytes left = (c + UInt8.ofNat d.length) :: (d ++ bytes) ∧ beNat d = left ∧ d.head? ≠ some 0 ∧
      (d = [] ↔ left = 0) := by
  induction left using Nat.strongRecOn generalizing c bytes with
  | ind left ih =>
    unfold asn1LenLoop
    by_cases h : left = 0
    · rw [dif_pos h]
      exact ⟨[], by simp, by simp [beNat, h], by simp, by simp [h]⟩
    · rw [dif_neg h]
      obtain ⟨d, h1, h2, h3, h4⟩ := ih (left / 256) (by omega) (c + 1) (UInt8.ofNat (left % 256) :: bytes)
      have hlow : (UInt8.ofNat (left % 256)).toNat = left % 256 := by simp [UInt8.toNat_ofNat']
      refine ⟨d ++ [UInt8.ofNat (left % 256)], ?_, ?_, ?_, ?_⟩
      · rw [h1, List.length_append, List.append_assoc]
        congr 1
        apply UInt8.toNat_inj.1
        simp only [UInt8.toNat_add, UInt8.toNat_ofNat', List.length_singleton]
        have : (1 : UInt8).toNat = 1 := rfl
        omega
      · rw [beNat_append, h2, show beNat [UInt8.ofNat (left % 256)] = left % 256 by simp [beNat, hlow]]
        simp only [List.length_singleton, Nat.pow_one]
        omega
      · cases d with
        | cons x t => simpa using h3
        | nil =>
          have h0 : left / 256 = 0 := h4.1 rfl
          simp only [List.nil_append, List.head?_cons, ne_eq, Option.some.injEq]
          intro he
          have := congrArg UInt8.toNat he
          rw [hlow] at this
          have hz : (0 : UInt8).toNat = 0 := rfl
          omega
      · simp [h]

theorem le_beNat {d : Bytes} (hne : d ≠ []) (h : d.head? ≠ some 0) : 256 ^ (d.length - 1) ≤ beNat d := by
  cases d with
  | nil => exact absurd rfl hne
  | cons x t =>
    rw [beNat_cons, List.length_cons, Nat.add_sub_cancel]
    have hx : x.toNat ≠ 0 := fun h0 => h (by simp; exact UInt8.toNat_inj.1 h0)
    calc 256 ^ t.length ≤ x.toNat * 256 ^ t.length := Nat.le_mul_of_pos_left _ (by omega)
      _ ≤ _ := Nat.le_add_right _ _

theorem derLength_wrap (b rest : Bytes) (hb : b.length < 2 ^ 64) :
    derLength (wrapInAsn1Len b ++ rest) = some (b.length, b ++ rest) := by
  unfold wrapInAsn1Len
  by_cases h : b.length ≤ 0x7f
  · rw [if_pos h]
    have : (UInt8.ofNat b.length).toNat = b.length := by
      rw [UInt8.toNat_ofNat']; omega
    simp only [List.cons_append, derLength, this]
    rw [if_pos (by omega)]
  · rw [if_neg h]
    obtain ⟨d, h1, h2, h3, h4⟩ := asn1LenLoop_eq 0x80 b b.length
    have hne : d ≠ [] := fun he => by have := h4.1 he; omega
    have hlen : d.length ≤ 8 := by
      have hle := le_beNat hne h3
      rw [h2] at hle
      rcases Nat.lt_or_ge 8 d.length with hgt | hle'
      · have : 256 ^ 8 ≤ 256 ^ (d.length - 1) := Nat.pow_le_pow_right (by decide) (by omega)
        have : (256 : Nat) ^ 8 = 2 ^ 64 := by decide
        omega
      · exact hle'
    have hpos : 0 < d.length := List.length_pos_of_ne_nil hne
    have hc : ((0x80 : UInt8) + UInt8.ofNat d.length).toNat = 128 + d.length := by
      have : (0x80 : UInt8).toNat = 128 := rfl
      rw [UInt8.toNat_add, UInt8.toNat_ofNat', this]
      omega
    rw [h1]
    simp only [List.cons_append, derLength, hc, List.append_assoc]
    rw [if_neg (by omega), Nat.add_sub_cancel_left, List.take_left' rfl, List.drop_left' rfl, h2]
    rw [if_neg]
    have hhd : (d ++ (b ++ rest)).head? = d.head? := by
      cases d with
      | nil => exact absurd rfl hne
      | cons x t => rfl
    rw [hhd]
    simp only [List.length_append]
    rintro (h5 | h5 | h5 | h5 | h5)
    · omega
    · omega
    · omega
    · exact h3 h5
    · omega

theorem derRead_wrap (tag : Byte) (b rest : Bytes) (hb : b.length < 2 ^ 64) :
    derRead (tag :: (wrapInAsn1Len b ++ rest)) = some (tag, b, rest) := by
  unfold derRead
  simp only [derLength_wrap b rest hb]
  rw [if_neg (by simp), List.take_left' rfl, List.drop_left' rfl]

theorem wrap_length (b : Bytes) (hb : b.length < 2 ^ 63) : (wrapInAsn1Len b).length ≤ b.length + 9 := by
  unfold wrapInAsn1Len
  by_cases h : b.length ≤ 0x7f
  · rw [if_pos h, List.length_cons]; omega
  · rw [if_neg h]
    obtain ⟨d, h1, h2, h3, h4⟩ := asn1LenLoop_eq 0x80 b b.length
    have hne : d ≠ [] := fun he => by have := h4.1 he; omega
    have hle := le_beNat hne h3
    rw [h2] at hle
    have hlen : d.length ≤ 8 := by
      rcases Nat.lt_or_ge 8 d.length with hgt | hle'
      · have : 256 ^ 8 ≤ 256 ^ (d.length - 1) := Nat.pow_le_pow_right (by decide) (by omega)
        have : (256 : Nat) ^ 8 = 2 ^ 64 := by decide
        omega
      · exact hle'
    rw [h1, List.length_cons, List.length_append]
    omega

/-- C109: what is put in a sequence can be read again, whatever follows it. -/
theorem C109_sequence (bytes rest : Bytes) (h : bytes.length < 2 ^ 64) :
    derRead (wrapInSequence bytes ++ rest) = some (0x30, bytes, rest) := derRead_wrap 0x30 bytes rest h

/-- C109: the encoding that is made of a key in the encoding SEC1 is a PKCS#8 encoding of it on the curve. -/
theorem C109_sec1 (key : Bytes) (h : key.length < 2 ^ 32) :
    IsPkcs8 (sec1ToPkcs8 prefixP256 key) oidP256 key ∧ IsPkcs8 (sec1ToPkcs8 prefixP384 key) oidP384 key := by
  have hl := wrap_length key (by omega)
  have hk : derRead (0x04 :: wrapInAsn1Len key) = some (0x04, key, []) := by
    have := derRead_wrap 0x04 key [] (by omega)
    rwa [List.append_nil] at this
  constructor
  · refine ⟨prefixP256 ++ 0x04 :: wrapInAsn1Len key, prefixP256.drop 3 ++ 0x04 :: wrapInAsn1Len key, prefixP256.drop 5, prefixP256.drop 14,
      0x04 :: wrapInAsn1Len key, ?_, ?_, ?_, by decide, by decide, hk⟩
    · have := C109_sequence (prefixP256 ++ 0x04 :: wrapInAsn1Len key) [] (by simp [prefixP256]; omega)
      rwa [List.append_nil] at this
    · simp [derRead, derLength, prefixP256]
    · simp [derRead, derLength, prefixP256]
  · refine ⟨prefixP384 ++ 0x04 :: wrapInAsn1Len key, prefixP384.drop 3 ++ 0x04 :: wrapInAsn1Len key, prefixP384.drop 5, prefixP384.drop 14,
      0x04 :: wrapInAsn1Len key, ?_, ?_, ?_, by decide, by decide, hk⟩
    · have := C109_sequence (prefixP384 ++ 0x04 :: wrapInAsn1Len key) [] (by simp [prefixP384]; omega)
      rwa [List.append_nil] at this
    · simp [derRead, derLength, prefixP384]
    · simp [derRead, derLength, prefixP384]

/-! ## Reading an encoding leaves no choice of it -/

theorem beNat_minimal {a b : Bytes} (ha : a ≠ []) (hb : b ≠ []) (ha0 : a.head? ≠ some 0) (hb0 : b.head? ≠ some 0)
    (h : beNat a = beNat b) : a = b := by
  have key : ∀ {x y : Bytes}, x ≠ [] → y ≠ [] → y.head? ≠ some 0 → beNat x = beNat y → y.length ≤ x.length := by
    intro x y hx hy h0 he
    rcases Nat.lt_or_ge x.length y.length with hl | hl
    · have h1 := le_beNat hy h0
      have h2 := beNat_lt x
      have h3 : 256 ^ x.length ≤ 256 ^ (y.length - 1) := Nat.pow_le_pow_right (by decide) (by omega)
      omega
    · exact hl
  exact beNat_inj (Nat.le_antisymm (key hb ha ha0 h.symm) (key ha hb hb0 h)) h

theorem derLength_inv {a r : Bytes} {n : Nat} (h : derLength a = some (n, r)) :
    ∀ c : Bytes, c.length = n → a = (wrapInAsn1Len c).take ((wrapInAsn1Len c).length - n) ++ r := by
  intro c hc
  cases a with
  | nil => cases h
  | cons b rest =>
    unfold derLength at h
    dsimp only at h
    by_cases hb : b.toNat < 128
    · rw [if_pos hb] at h
      cases h
      unfold wrapInAsn1Len
      rw [if_pos (by omega), List.length_cons, hc, Nat.add_sub_cancel_left]
      simp
    · rw [if_neg hb] at h
      split at h
      · cases h
      · rename_i hn
        simp only [not_or] at hn
        obtain ⟨h1, h2, h3, h4, h5⟩ := hn
        simp only [Option.some.injEq, Prod.mk.injEq] at h
        obtain ⟨hn, hr⟩ := h
        subst hr
        rw [← hn] at hc ⊢
        have hbl := b.toNat_lt
        unfold wrapInAsn1Len
        rw [if_neg (by omega)]
        obtain ⟨d, e1, e2, e3, e4⟩ := asn1LenLoop_eq 0x80 c c.length
        have hd : d ≠ [] := fun he => by have := e4.1 he; omega
        have htl : (rest.take (b.toNat - 128)).length = b.toNat - 128 := by
          rw [List.length_take]; omega
        have htne : rest.take (b.toNat - 128) ≠ [] := fun he => by rw [he] at htl; simp at htl; omega
        have hth : (rest.take (b.toNat - 128)).head? ≠ some 0 := by
          rw [List.head?_take, if_neg h1]
          exact h4
        have : d = rest.take (b.toNat - 128) := beNat_minimal hd htne e3 hth (e2.trans hc)
        rw [e1, List.length_cons, List.length_append, ← hc]
        have hx : d.length + c.length + 1 - c.length = d.length + 1 := by omega
        rw [hx, List.take_succ_cons, List.take_left' rfl, List.cons_append]
        refine List.cons_eq_cons.2 ⟨?_, ?_⟩
        · apply UInt8.toNat_inj.1
          have h8 : (0x80 : UInt8).toNat = 128 := rfl
          rw [UInt8.toNat_add, UInt8.toNat_ofNat', this, htl, h8]
          omega
        · rw [this, List.take_append_drop]

theorem wrap_ends (c : Bytes) : ∃ l : Bytes, wrapInAsn1Len c = l ++ c := by
  unfold wrapInAsn1Len
  split
  · exact ⟨[_], rfl⟩
  · obtain ⟨d, e1, -⟩ := asn1LenLoop_eq 0x80 c c.length
    exact ⟨_ :: d, e1⟩

theorem derRead_inv {a c r : Bytes} {tag : Byte} (h : derRead a = some (tag, c, r)) : a = tag :: (wrapInAsn1Len c ++ r) := by
  cases a with
  | nil => cases h
  | cons t rest =>
    unfold derRead at h
    dsimp only at h
    cases hl : derLength rest with
    | none => rw [hl] at h; cases h
    | some p =>
      obtain ⟨n, rest'⟩ := p
      rw [hl] at h
      simp only at h
      split at h
      · cases h
      · rename_i hn
        cases h
        have hcl : (rest'.take n).length = n := by rw [List.length_take]; omega
        have := derLength_inv hl (rest'.take n) hcl
        obtain ⟨l, e⟩ := wrap_ends (rest'.take n)
        rw [e, List.length_append, hcl, Nat.add_sub_cancel, List.take_left' rfl] at this
        rw [this, e, List.append_assoc, List.take_append_drop]

theorem isPkcs8_unique {e e' curve key : Bytes} (h : IsPkcs8 e curve key) (h' : IsPkcs8 e' curve key) : e = e' := by
  obtain ⟨b, v, a, p, k, h1, h2, h3, h4, h5, h6⟩ := h
  obtain ⟨b', v', a', p', k', h1', h2', h3', h4', h5', h6'⟩ := h'
  have ep : p = p' := (derRead_inv h5).trans (derRead_inv h5').symm
  have ek : k = k' := (derRead_inv h6).trans (derRead_inv h6').symm
  subst ep ek
  have ea : a = a' := (derRead_inv h4).trans (derRead_inv h4').symm
  subst ea
  have ev : v = v' := (derRead_inv h3).trans (derRead_inv h3').symm
  subst ev
  have eb : b = b' := (derRead_inv h2).trans (derRead_inv h2').symm
  subst eb
  exact (derRead_inv h1).trans (derRead_inv h1').symm

/-! ## Keys -/

/-- C109: a key is accepted if and only if `ring` reads it in one of the supported encodings, as such a key; keys on P-256 and P-384
also in the encoding SEC1.  If it can be read in more than one way, RSA comes first, then P-256, P-384, Ed25519. -/
theorem C109_key (R : Ring) (der : Bytes) (h : der.length < 2 ^ 32) :
    (∀ k, anySupported R der = some k → Reads R der k) ∧ (∀ k, Reads R der k → ∃ k', anySupported R der = some k') ∧
    (∀ k k', anySupported R der = some k → Reads R der k' → k.alg = k'.alg ∨ [k.alg, k'.alg].Sublist [.rsa, .p256, .p384, .ed25519]) := by
  obtain ⟨s1, s2⟩ := C109_sec1 der h
  have c1 : ∀ p e, IsPkcs8 e oidP256 der → R.ecdsaP256 e = some p → R.ecdsaP256 (sec1ToPkcs8 prefixP256 der) = some p :=
    fun p e he hp => by rw [isPkcs8_unique s1 he]; exact hp
  have c2 : ∀ p e, IsPkcs8 e oidP384 der → R.ecdsaP384 e = some p → R.ecdsaP384 (sec1ToPkcs8 prefixP384 der) = some p :=
    fun p e he hp => by rw [isPkcs8_unique s2 he]; exact hp
  unfold anySupported anyEcdsa anyEddsa newRsa newP256 newP384
  cases r1 : R.rsaDer der with
  | some p =>
    refine ⟨fun k hk => ?_, fun k hk => ⟨.rsa p, by simp⟩, fun k k' hk hk' => ?_⟩
    · obtain rfl : SigningKey.rsa p = k := by simpa using hk
      exact .pkcs1 r1
    · obtain rfl : SigningKey.rsa p = k := by simpa using hk
      cases hk' <;> simp [SigningKey.alg]
  | none =>
  cases r2 : R.rsaPkcs8 der with
  | some p =>
    refine ⟨fun k hk => ?_, fun k hk => ⟨.rsa p, by simp⟩, fun k k' hk hk' => ?_⟩
    · obtain rfl : SigningKey.rsa p = k := by simpa using hk
      exact .rsaPkcs8 r2
    · obtain rfl : SigningKey.rsa p = k := by simpa using hk
      cases hk' <;> simp [SigningKey.alg]
  | none =>
  cases r3 : R.ecdsaP256 der with
  | some p =>
    refine ⟨fun k hk => ?_, fun k hk => ⟨.p256 p, by simp⟩, fun k k' hk hk' => ?_⟩
    · obtain rfl : SigningKey.p256 p = k := by simpa using hk
      exact .p256Pkcs8 r3
    · obtain rfl : SigningKey.p256 p = k := by simpa using hk
      cases hk' <;> simp_all [SigningKey.alg]
  | none =>
  cases r4 : R.ecdsaP256 (sec1ToPkcs8 prefixP256 der) with
  | some p =>
    refine ⟨fun k hk => ?_, fun k hk => ⟨.p256 p, by simp⟩, fun k k' hk hk' => ?_⟩
    · obtain rfl : SigningKey.p256 p = k := by simpa using hk
      exact .p256Sec1 s1 r4
    · obtain rfl : SigningKey.p256 p = k := by simpa using hk
      cases hk' <;> simp_all [SigningKey.alg]
  | none =>
  cases r5 : R.ecdsaP384 der with
  | some p =>
    refine ⟨fun k hk => ?_, fun k hk => ⟨.p384 p, by simp⟩, fun k k' hk hk' => ?_⟩
    · obtain rfl : SigningKey.p384 p = k := by simpa using hk
      exact .p384Pkcs8 r5
    · obtain rfl : SigningKey.p384 p = k := by simpa using hk
      cases hk' with
      | p256Sec1 he hp => have := c1 _ _ he hp; simp_all
      | _ => simp_all [SigningKey.alg]
  | none =>
  cases r6 : R.ecdsaP384 (sec1ToPkcs8 prefixP384 der) with
  | some p =>
    refine ⟨fun k hk => ?_, fun k hk => ⟨.p384 p, by simp⟩, fun k k' hk hk' => ?_⟩
    · obtain rfl : SigningKey.p384 p = k := by simpa using hk
      exact .p384Sec1 s2 r6
    · obtain rfl : SigningKey.p384 p = k := by simpa using hk
      cases hk' with
      | p256Sec1 he hp => have := c1 _ _ he hp; simp_all
      | _ => simp_all [SigningKey.alg]
  | none =>
  have only : ∀ k, Reads R der k → ∃ p, R.ed25519 der = some p ∧ k = .ed25519 p := by
    intro k hk
    cases hk with
    | p256Sec1 he hp => have := c1 _ _ he hp; simp_all
    | p384Sec1 he hp => have := c2 _ _ he hp; simp_all
    | ed25519 hp => exact ⟨_, hp, rfl⟩
    | _ => simp_all
  refine ⟨fun k hk => ?_, fun k hk => ?_, fun k k' hk hk' => ?_⟩
  · simp only [Option.map_none, Option.orElse_eq_orElse, Option.orElse_eq_or, Option.or_none] at hk
    obtain ⟨p, hp, rfl⟩ := Option.map_eq_some_iff.1 hk
    exact .ed25519 hp
  · obtain ⟨p, hp, rfl⟩ := only k hk
    exact ⟨.ed25519 p, by simp [hp]⟩
  · obtain ⟨p, hp, rfl⟩ := only k' hk'
    simp [hp] at hk
    exact .inl (by rw [← hk])

end Tlsn.ClientAuth
