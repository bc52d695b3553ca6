import Verif.Ghash.Lemmas

/-! # C30 and C31: GHASH -/

namespace Tlsn

theorem zipWith_shares {sL sF : List Gf128} {h : Gf128} {n : Nat} (hL : sL.length = n) (hF : sF.length = n)
    (hs : ∀ j, j < n → sL.getD j 0 + sF.getD j 0 = h ^ (j + 1)) :
    List.zipWith (· + ·) sL sF = (List.range n).map fun j => h ^ (j + 1) := by
  apply List.ext_getElem
  · simp [hL, hF]
  · intro i h1 h2
    have hi : i < n := by simpa using h2
    have := hs i hi
    rw [List.getD_eq_getElem _ _ (by omega), List.getD_eq_getElem _ _ (by omega)] at this
    simpa using this

theorem getD_zip_mul (a b : List Gf128) (t : Nat) (ha : t < a.length) (hb : t < b.length) (f : Gf128 → Gf128 → Gf128) :
    (List.zipWith f a b).getD t 0 = f (a.getD t 0) (b.getD t 0) := by
  rw [List.getD_eq_getElem _ _ (by simp; omega), List.getD_eq_getElem _ _ ha, List.getD_eq_getElem _ _ hb,
    List.getElem_zipWith]

/-- Both parties get through `setup` with shares of all powers of the key. -/
theorem setup_shares {keyL keyF : Bytes} {l f : Converter} (hL : keyL.length = 16) (hF : keyF.length = 16)
    (hc : ConvertersFit l f (Gf128.ofBytes keyL) (Gf128.ofBytes keyF)) :
    ∃ sL sF, ghashOf keyL l = .ready sL ∧ ghashOf keyF f = .ready sF ∧ sL.length = 1026 ∧ sF.length = 1026 ∧
      List.zipWith (· + ·) sL sF =
        (List.range 1026).map fun j => (Gf128.ofBytes (xorBytes keyL keyF)) ^ (j + 1) := by
  have olen : ∀ m, (oddShares m).length = 512 := fun m => by simp [oddShares_eq]
  have ho : ∀ t, t < 512 → (l.toAdd (oddShares (l.toMul (Gf128.ofBytes keyL)))).getD t 0 +
      (f.toAdd (oddShares (f.toMul (Gf128.ofBytes keyF)))).getD t 0 =
      (l.toMul (Gf128.ofBytes keyL)) ^ (2 * t + 3) * (f.toMul (Gf128.ofBytes keyF)) ^ (2 * t + 3) := by
    intro t ht
    rw [← getD_zip_mul _ _ t (by rw [hc.lenL, olen]; omega) (by rw [hc.lenF, olen]; omega) (· + ·), hc.toAdd,
      getD_zip_mul _ _ t (by rw [olen]; omega) (by rw [olen]; omega), oddShares_eq, oddShares_eq,
      List.getD_eq_getElem _ _ (by simpa using ht), List.getD_eq_getElem _ _ (by simpa using ht)]
    simp
  obtain ⟨sL, sF, h1, h2, h3, h4, h5⟩ := shares_loop hc.toMul (by rw [hc.lenL, olen]) (by rw [hc.lenF, olen]) ho
    1025 (by omega)
  have e1 : computeShares (Gf128.ofBytes keyL) (l.toAdd (oddShares (l.toMul (Gf128.ofBytes keyL)))) = some sL := by
    rw [computeShares, show maxPower - 1 = 1025 from rfl, h1]; rfl
  have e2 : computeShares (Gf128.ofBytes keyF) (f.toAdd (oddShares (f.toMul (Gf128.ofBytes keyF)))) = some sF := by
    rw [computeShares, show maxPower - 1 = 1025 from rfl, h2]; rfl
  refine ⟨sL, sF, ?_, ?_, h3, h4, ?_⟩
  · simp [ghashOf, GhashState.setKeyCall, GhashState.setupCall, hL, e1]
  · simp [ghashOf, GhashState.setKeyCall, GhashState.setupCall, hF, e2]
  · rw [Gf128.ofBytes_xor hL hF]
    exact zipWith_shares h3 h4 h5

theorem blockCount_le_iff {n m : Nat} : blockCount n ≤ m ↔ n ≤ 16 * m := by
  unfold blockCount; split <;> omega

/-- **C30** The xor of the two parties' results is GHASH of the input under the xor of the key shares, for
every input of at most 1026 blocks.  Longer inputs are rejected. -/
theorem C30_ghash (keyL keyF : Bytes) (l f : Converter) (hL : keyL.length = 16) (hF : keyF.length = 16)
    (hc : ConvertersFit l f (Gf128.ofBytes keyL) (Gf128.ofBytes keyF)) (data : Bytes) :
    (data.length ≤ 16 * 1026 → ∃ tL tF, (ghashOf keyL l).compute data = .ok tL ∧
      (ghashOf keyF f).compute data = .ok tF ∧ tL.length = 16 ∧ tF.length = 16 ∧
      xorBytes tL tF = ghashBytes (xorBytes keyL keyF) data) ∧
    (data.length > 16 * 1026 → (ghashOf keyL l).compute data = .err .inputLength ∧
      (ghashOf keyF f).compute data = .err .inputLength) := by
  obtain ⟨sL, sF, e1, e2, h3, h4, h5⟩ := setup_shares hL hF hc
  rw [e1, e2]
  have hmp : maxPower = 1026 := rfl
  constructor
  · intro hd
    have hb : blockCount data.length ≤ 1026 := blockCount_le_iff.2 hd
    have hlen := blocksOf_length data
    have ec : ∀ s : List Gf128, (GhashState.ready s).compute data =
        .ok (dotFrom 0 (blocksOf data) (s.reverse.drop (s.length - (blocksOf data).length))).toBytes := by
      intro s
      simp only [GhashState.compute]; rw [if_neg (by omega)]
    refine ⟨_, _, ec sL, ec sF, Gf128.toBytes_length _, Gf128.toBytes_length _, ?_⟩
    · rw [← Gf128.toBytes_add, ghashBytes, nistGhash, horner_eq, zero_mul, zero_add, dotFrom_add _ _ _ (by simp [h3, h4]),
        h3, h4, ← List.drop_zipWith, ← List.reverse_zipWith (by omega), h5, hlen,
        reverse_drop_powers _ _ _ hb]
  · intro hd
    have hb : ¬ blockCount data.length ≤ 1026 := fun h => by have := blockCount_le_iff.1 h; omega
    simp only [GhashState.compute]
    rw [if_pos (by omega), if_pos (by omega)]
    exact ⟨rfl, rfl⟩

/-- The two shares of a one-time pad sharing xor to the value. -/
theorem otp_shares {v pL pF : Bytes} (hv : v.length = 16) (hL : pL.length = 16) (hF : pF.length = 16) :
    xorBytes (otpLeader pL) (otpFollower v pL pF) = v := by
  have : xorBytes (xorBytes (xorBytes v pL) pF) pF = xorBytes v pL :=
    xorBytes_cancel _ _ (by simp; omega)
  rw [otpLeader, otpFollower, this, xorBytes_comm, xorBytes_cancel _ _ (by omega)]

/-- A record to compute a tag for: the counter block, the two parties' pads for it, and the public data. -/
structure TagRecord where
  j0 : Bytes
  padL : Bytes
  padF : Bytes
  aad : Bytes
  ciphertext : Bytes

/-- The tag of AES-GCM under the hash key `h` (NIST SP 800-38D, algorithm 4, for a 12-byte IV). -/
def gcmTag (h j0 aad ciphertext : Bytes) : Bytes := xorBytes j0 (ghashBytes h (buildGhashData aad ciphertext))

/-- What the leader holds. -/
def TagRecord.leader (r : TagRecord) : TagInput := ⟨otpLeader r.padL, r.aad, r.ciphertext⟩
/-- What the follower holds. -/
def TagRecord.follower (r : TagRecord) : TagInput := ⟨otpFollower r.j0 r.padL r.padF, r.aad, r.ciphertext⟩

/-- The blocks and pads have 16 bytes, and the record is not longer than the largest TLS record. -/
structure TagRecord.Ok (r : TagRecord) : Prop where
  j0 : r.j0.length = 16
  padL : r.padL.length = 16
  padF : r.padF.length = 16
  fits : (buildGhashData r.aad r.ciphertext).length ≤ 16 * 1026

theorem tagShares_combine {gL gF : GhashState} {h : Bytes}
    (hg : ∀ data : Bytes, data.length ≤ 16 * 1026 → ∃ tL tF, gL.compute data = .ok tL ∧ gF.compute data = .ok tF ∧
      tL.length = 16 ∧ tF.length = 16 ∧ xorBytes tL tF = ghashBytes h data) (recs : List TagRecord)
    (hr : ∀ r ∈ recs, r.Ok) :
    ∃ sL sF, tagShares gL (recs.map (·.leader)) = .ok sL ∧ tagShares gF (recs.map (·.follower)) = .ok sF ∧
      leaderTags sL sF = some (recs.map fun r => gcmTag h r.j0 r.aad r.ciphertext) := by
  induction recs with
  | nil => exact ⟨[], [], rfl, rfl, rfl⟩
  | cons r recs ih =>
    obtain ⟨sL, sF, h1, h2, h3⟩ := ih fun r hr' => hr r (by simp [hr'])
    obtain ⟨a1, a2, a3, a4⟩ := hr r (by simp)
    obtain ⟨tL, tF, b1, b2, b3, b4, b5⟩ := hg _ a4
    refine ⟨xorBytes (otpLeader r.padL) tL :: sL, xorBytes (otpFollower r.j0 r.padL r.padF) tF :: sF, ?_, ?_, ?_⟩
    · simp only [List.map_cons, tagShares, tagShare, TagRecord.leader, b1]
      have : tagShares gL (List.map (fun x => TagRecord.leader x) recs) = .ok sL := h1
      simp only [TagRecord.leader] at this
      rw [this]
    · simp only [List.map_cons, tagShares, tagShare, TagRecord.follower, b2]
      have : tagShares gF (List.map (fun x => TagRecord.follower x) recs) = .ok sF := h2
      simp only [TagRecord.follower] at this
      rw [this]
    · simp only [leaderTags] at h3 ⊢
      split at h3
      · cases h3
      · rename_i hlen
        simp only [ne_eq, Decidable.not_not] at hlen
        rw [if_neg (by simp [hlen])]
        simp only [Option.some.injEq] at h3
        rw [List.zipWith_cons_cons, h3, List.map_cons]
        congr 2
        rw [gcmTag, ← b5]
        conv_rhs => rw [← otp_shares a1 a2 a3]
        generalize otpLeader r.padL = x
        generalize otpFollower r.j0 r.padL r.padF = y
        rw [xorBytes_assoc, xorBytes_assoc, ← xorBytes_assoc tL, xorBytes_comm tL y, xorBytes_assoc]

/-- **C30** The tags the leader computes for a batch of records, from its shares and the honest follower's,
are the AES-GCM tags, and it accepts received tags exactly if they are the AES-GCM tags.  The hash key and
every counter block are shared by one-time pads. -/
theorem C30_tags (h padL padF : Bytes) (l f : Converter) (hh : h.length = 16) (hL : padL.length = 16)
    (hF : padF.length = 16)
    (hc : ConvertersFit l f (Gf128.ofBytes (otpLeader padL)) (Gf128.ofBytes (otpFollower h padL padF)))
    (recs : List TagRecord) (hr : ∀ r ∈ recs, r.Ok) :
    let expected := recs.map fun r => gcmTag h r.j0 r.aad r.ciphertext
    ∃ sL sF, tagShares (ghashOf (otpLeader padL) l) (recs.map (·.leader)) = .ok sL ∧
      tagShares (ghashOf (otpFollower h padL padF) f) (recs.map (·.follower)) = .ok sF ∧
      leaderTags sL sF = some expected ∧
      ∀ tags, leaderVerifies sL sF tags = true ↔ tags = expected := by
  intro expected
  have hfl : (otpFollower h padL padF).length = 16 := by simp [otpFollower, hh, hL, hF]
  obtain ⟨sL, sF, h1, h2, h3⟩ := tagShares_combine (gL := ghashOf (otpLeader padL) l)
    (gF := ghashOf (otpFollower h padL padF) f) (h := h)
    (fun data hd => by
      have := (C30_ghash (otpLeader padL) (otpFollower h padL padF) l f hL hfl hc data).1 hd
      rwa [otp_shares hh hL hF] at this) recs hr
  refine ⟨sL, sF, h1, h2, h3, fun tags => ?_⟩
  rw [leaderVerifies, h3]
  simp [expected]

/-- **C30** A batch with a record that is too long fails as a whole. -/
theorem C30_too_long (keyL keyF : Bytes) (l f : Converter) (hL : keyL.length = 16) (hF : keyF.length = 16)
    (hc : ConvertersFit l f (Gf128.ofBytes keyL) (Gf128.ofBytes keyF)) (before after : List TagInput) (d : TagInput)
    (hd : (buildGhashData d.aad d.ciphertext).length > 16 * 1026)
    (hb : ∀ x ∈ before, (buildGhashData x.aad x.ciphertext).length ≤ 16 * 1026) :
    tagShares (ghashOf keyL l) (before ++ d :: after) = .err .inputLength := by
  induction before with
  | nil =>
    have := ((C30_ghash keyL keyF l f hL hF hc (buildGhashData d.aad d.ciphertext)).2 hd).1
    simp [tagShares, tagShare, this]
  | cons x before ih =>
    obtain ⟨t, -, ht, -⟩ := (C30_ghash keyL keyF l f hL hF hc (buildGhashData x.aad x.ciphertext)).1
      (hb x (by simp))
    simp only [List.cons_append, tagShares, tagShare, ht]
    rw [ih fun x hx => hb x (by simp [hx])]

/-! ## Examples for C30 -/

/-- GHASH as specified here gives test case 2 of the GCM specification. -/
example : ghashBytes
    [0x66, 0xe9, 0x4b, 0xd4, 0xef, 0x8a, 0x2c, 0x3b, 0x88, 0x4c, 0xfa, 0x59, 0xca, 0x34, 0x2b, 0x2e]
    (buildGhashData [] [0x03, 0x88, 0xda, 0xce, 0x60, 0xb6, 0xa3, 0x92, 0xf3, 0x28, 0xc2, 0xb9, 0x71, 0xb2, 0xfe,
      0x78]) =
    [0xf3, 0x8c, 0xbb, 0x1a, 0xd6, 0x92, 0x23, 0xdc, 0xc3, 0x45, 0x7a, 0xe5, 0xb6, 0xb0, 0xf8, 0x85] := by
  decide +kernel

/-- Example for C30: conversions that fit together exist for all key shares.  Here the leader's
multiplicative share is the whole key and the follower's is one; the leader's additive shares are the
products and the follower's are zero. -/
example (keyL keyF : Gf128) : ConvertersFit ⟨fun _ => keyL + keyF, fun xs => xs⟩
    ⟨fun _ => 1, fun xs => xs.map fun _ => 0⟩ keyL keyF := by
  refine ⟨mul_one _, fun _ => rfl, by simp, ?_⟩
  change List.zipWith _ (oddShares (keyL + keyF)) ((oddShares 1).map fun _ => 0) = _
  rw [oddShares_eq, oddShares_eq]
  generalize 512 = n
  apply List.ext_getElem
  · simp
  · intro i h1 h2
    simp

/-- Example for C30: a record that meets the hypotheses. -/
example : (⟨List.replicate 16 1, List.replicate 16 2, List.replicate 16 3, List.replicate 13 4,
    List.replicate 100 5⟩ : TagRecord).Ok := ⟨by decide, by decide, by decide, by decide +kernel⟩

/-! ## C31 -/

theorem padBlocks_len16 (b : Bytes) : (padBlocks b).length = 16 * blockCount b.length := by
  have : b.length ≤ blockCount b.length * 16 := by unfold blockCount; split <;> omega
  simp [padBlocks]; omega

theorem padBlocks_injective {a b : Bytes} (hl : a.length = b.length) (h : padBlocks a = padBlocks b) : a = b := by
  unfold padBlocks at h
  exact (List.append_inj h hl).1

/-- **C31** Different pairs of additional data and ciphertext have different GHASH inputs, whose length is
a multiple of the block length. -/
theorem C31_ghash_input (aad ct aad' ct' : Bytes) (h1 : aad.length < 2 ^ 61) (h2 : ct.length < 2 ^ 61)
    (h3 : aad'.length < 2 ^ 61) (h4 : ct'.length < 2 ^ 61) :
    (buildGhashData aad ct).length % 16 = 0 ∧
    (buildGhashData aad ct = buildGhashData aad' ct' → aad = aad' ∧ ct = ct') := by
  constructor
  · simp [buildGhashData, padBlocks_len16]
  · intro h
    unfold buildGhashData at h
    rw [← List.append_assoc, ← List.append_assoc] at h
    obtain ⟨ha, hb⟩ := List.append_inj' h (by simp)
    have hlen := beBytes_inj (by norm_num; omega) (by norm_num; omega) hb
    have e1 : aad.length = aad'.length := by omega
    have e2 : ct.length = ct'.length := by omega
    obtain ⟨hc, hd⟩ := List.append_inj ha (by rw [padBlocks_len16, padBlocks_len16, e1])
    exact ⟨padBlocks_injective e1 hc, padBlocks_injective e2 hd⟩

/-- **C31** The additional data of a TLS 1.2 record determines its sequence number, its type and version on
the wire, and its length, for lengths below 2^16. -/
theorem C31_aad (seq seq' len len' : Nat) (t t' : ContentType) (v v' : ProtocolVersion) (h1 : seq < 2 ^ 64)
    (h2 : seq' < 2 ^ 64) (h3 : len < 2 ^ 16) (h4 : len' < 2 ^ 16)
    (h : makeTls12Aad seq t v len = makeTls12Aad seq' t' v' len') :
    seq = seq' ∧ t.getU8 = t'.getU8 ∧ v.getU16 = v'.getU16 ∧ len = len' := by
  unfold makeTls12Aad at h
  obtain ⟨a, b⟩ := List.append_inj h (by simp)
  obtain ⟨c, d⟩ := List.append_inj b (by simp)
  obtain ⟨e, f⟩ := List.append_inj d (by simp)
  refine ⟨beBytes_inj (by norm_num; omega) (by norm_num; omega) a, by simpa using c, ?_,
    beBytes_inj (by norm_num; omega) (by norm_num; omega) f⟩
  have := beBytes_inj (by have := v.getU16.toNat_lt; norm_num; omega)
    (by have := v'.getU16.toNat_lt; norm_num; omega) e
  exact UInt16.toNat_inj.1 this

/-- **C31** Beyond that the length is truncated, so that different lengths have the same additional
data. -/
theorem C31_aad_truncates (seq len : Nat) (t : ContentType) (v : ProtocolVersion) :
    makeTls12Aad seq t v (len + 2 ^ 16) = makeTls12Aad seq t v len := by
  unfold makeTls12Aad
  rw [← beBytes_mod 2 (len + 2 ^ 16), ← beBytes_mod 2 len]
  have h : (len + 2 ^ 16) % 256 ^ 2 = len % 256 ^ 2 := by norm_num
  rw [h]

/-- Example for C31: the additional data of a record. -/
example : makeTls12Aad 5 .applicationData .tls12 300 = [0, 0, 0, 0, 0, 0, 0, 5, 23, 3, 3, 1, 44] ∧
    (buildGhashData (makeTls12Aad 5 .applicationData .tls12 300) (List.replicate 300 7)).length = 16 + 304 + 16 := by
  decide +kernel

/-- **C30** A key is accepted exactly when it has sixteen bytes and none was set before; a key of another length
changes nothing. -/
theorem C30_key_length (s : GhashState) (key : Bytes) :
    ((s.setKeyCall key).2 = .ok () ↔ key.length = 16 ∧ s = .init) ∧
    (key.length ≠ 16 → s.setKeyCall key = (s, .err .keyLength)) := by
  constructor
  · by_cases h : key.length = 16
    · cases s <;> simp [GhashState.setKeyCall, h]
    · simp [GhashState.setKeyCall, h]
  · intro h; simp [GhashState.setKeyCall, h]

/-- Example for `C30_key_length`: a short key. -/
example : ([1, 2, 3] : Bytes).length ≠ 16 := by decide

end Tlsn
