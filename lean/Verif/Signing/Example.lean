import Verif.Signing.Props

/-! # The signature algorithms of attestations: examples -/

namespace Tlsn.Signing

/-- The first 32 bytes, filled up with zeros. -/
def pad32 (d : Bytes) : Bytes := (d ++ List.replicate 32 0).take 32

theorem pad32_length (d : Bytes) : (pad32 d).length = 32 := by simp [pad32]

/-- A toy signature: the digest, followed by the key. -/
def exSign (k : Byte) (d : Bytes) : { b : Bytes // b.length = 64 } :=
  ⟨pad32 d ++ List.replicate 32 k, by simp [pad32_length]⟩

/-- A toy curve; `ok` restricts what a verifying key accepts. Signing keys have 32 bytes, the recovery identifier is the key
modulo 4. -/
def exCurve (ok : Byte → Bytes → Bool) : Ecdsa where
  SK := Byte
  VK := Byte
  Sg := { b : Bytes // b.length = 64 }
  skFromSlice b := if b.length = 32 then b.head? else none
  vkOf k := k
  vkToSec1 vk := [2, vk]
  vkFromSec1
    | [2, vk] => some vk
    | _ => none
  sgToVec s := s.1
  sgFromSlice b := if h : b.length = 64 then some ⟨b, h⟩ else none
  signPrehash := exSign
  signPrehashRecoverable k d := some (exSign k d, k % 4)
  verifyPrehash vk d s := s.1 == (exSign vk d).1 && ok vk d

/-- Toy curves and toy hash functions. -/
def exCrypto (ok : Byte → Bytes → Bool) : Crypto where
  k256 := exCurve ok
  p256 := exCurve ok
  sha256 m := pad32 m
  keccak256 m := pad32 (0 :: m)

theorem exCurve_sig (ok : Byte → Bytes → Bool) (k : Byte) (d : Bytes) :
    (exCurve ok).sgFromSlice (exSign k d).1 = some (exSign k d) := by
  simp only [exCurve]
  rw [dif_pos (exSign k d).2]

theorem exCurve_lawful : (exCurve fun _ _ => true).Lawful where
  key _ := rfl
  sig s := by
    obtain ⟨b, h⟩ := s
    simp only [exCurve]
    rw [dif_pos h]
  size b s h := by
    by_cases hb : b.length = 64
    · exact hb
    · simp [exCurve, hb] at h
  signs k d := by simp [exCurve]
  signsRecoverable k d s r h := by
    simp only [exCurve, Option.some.injEq] at h
    obtain ⟨rfl, rfl⟩ := Prod.mk.inj h
    simp [exCurve]

theorem exCrypto_lawful : (exCrypto fun _ _ => true).Lawful := ⟨exCurve_lawful, exCurve_lawful⟩

/-- Key bytes. -/
def exKey (k : Byte) : Bytes := List.replicate 32 k

/-- Calls: a key for each algorithm, a refused one, and another one for the first. -/
def exCalls : List SignerCall :=
  [.setSecp256k1 (exKey 5), .setSecp256r1 (exKey 6), .setSecp256k1eth (exKey 9), .setSecp256k1 [1], .setSecp256k1 (exKey 7)]

theorem exCalls_builtIn : BuiltIn exCalls := by
  intro s h
  simp [exCalls] at h

/-- Example for `C118_signer`: the last accepted call decides, the refused call changes nothing. -/
example : ((SignerProvider.default.calls (exCrypto fun _ _ => true) exCalls).get 1).map (·.verifyingKey) = some ⟨1, [2, 7]⟩ ∧
    ((SignerProvider.default.calls (exCrypto fun _ _ => true) exCalls).get 3).map (·.verifyingKey) = some ⟨1, [2, 9]⟩ ∧
    ((SignerProvider.default.calls (exCrypto fun _ _ => true) exCalls).get 4).isNone = true := ⟨rfl, rfl, rfl⟩

/-- Example for `C118_supported`. -/
example : (SignerProvider.default.calls (exCrypto fun _ _ => true) exCalls).supportedAlgs = [1, 3, 2] := by decide

/-- Example for `C118_call`: 32 bytes are a key, one byte is none. -/
example : (SignerProvider.default.call (exCrypto fun _ _ => true) (.setSecp256k1eth (exKey 9))).2 = true ∧
    (SignerProvider.default.call (exCrypto fun _ _ => true) (.setSecp256k1eth [9])).2 = false := ⟨rfl, rfl⟩

/-- Example for `C118_ids`. -/
example : newSignatureAlgId 128 = some 128 ∧ newSignatureAlgId 127 = none ∧ newKeyAlgId 255 = some 255 ∧
    newKeyAlgId 2 = none := by decide

/-- Example for `C118_signs`: an Ethereum signature ends in 28 for the recovery identifier 1; a key whose recovery identifier is
2 cannot sign. -/
example : ∃ s, (SignerProvider.default.calls (exCrypto fun _ _ => true) exCalls).get 3 = some s ∧
    (s.sign [4]).map (fun g => (g.alg, g.data.length, g.data.getLast?)) = some (3, 65, some 28) ∧
    ((ethSigner (exCrypto fun _ _ => true) (6 : Byte)).sign [4]).isNone = true := ⟨_, rfl, rfl, rfl⟩

/-- Example for `C119_accepts` and `C119_separate`: a signature is accepted under its algorithm only, with any last byte for
Ethereum. -/
example (v : Byte) : Valid (exCrypto fun _ _ => true) 1 ⟨1, [2, 7]⟩ [4] (exSign 7 (pad32 [4])).1 ∧
    Valid (exCrypto fun _ _ => true) 3 ⟨1, [2, 7]⟩ [4] ((exSign 7 (pad32 [0, 4])).1 ++ [v]) ∧
    ¬ Valid (exCrypto fun _ _ => true) 2 ⟨1, [2, 7]⟩ [4] (exSign 7 (pad32 [4])).1 := by
  have h1 : Valid (exCrypto fun _ _ => true) 1 ⟨1, [2, 7]⟩ [4] (exSign 7 (pad32 [4])).1 :=
    .k1 _ _ _ (7 : Byte) (exSign 7 (pad32 [4])) rfl (exCurve_sig _ _ _) (exCurve_lawful.signs (7 : Byte) _)
  refine ⟨h1, .eth _ _ _ _ (7 : Byte) (exSign 7 (pad32 [0, 4])) rfl (exSign 7 (pad32 [0, 4])).2 (exCurve_sig _ _ _)
    (exCurve_lawful.signs (7 : Byte) _), fun h => ?_⟩
  have := ((C119_separate _ exCrypto_lawful _ _ _ _ h).2.1).1 rfl
  exact absurd this (by decide)

/-- A user's verifier takes the place of a built-in one. -/
example : lastFor 1 [⟨1, fun _ _ _ => false⟩, ⟨2, fun _ _ _ => true⟩] = some ⟨1, fun _ _ _ => false⟩ := rfl

/-- Example for `C118_accepted` and `C118_attestation`: a notary with a built-in signer. -/
example (uid : Vector Byte 16) (cert : CertVerifier) : ∃ a p,
    NotaryBuilds (cryptoProvider exProvider.hash cert exProvider.dom
      (SignerProvider.default.calls (exCrypto fun _ _ => true) exCalls) (.default (exCrypto fun _ _ => true)))
      (AttestationConfig.default [1]) exRequest exOps uid a ∧
    AttestationProof.new (cryptoProvider exProvider.hash cert exProvider.dom .default (.default (exCrypto fun _ _ => true))) a =
      .ok p ∧
    p.verify true (cryptoProvider exProvider.hash cert exProvider.dom .default (.default (exCrypto fun _ _ => true))) = .ok a := by
  have hb : ∃ a, NotaryBuilds (cryptoProvider exProvider.hash cert exProvider.dom
      (SignerProvider.default.calls (exCrypto fun _ _ => true) exCalls) (.default (exCrypto fun _ _ => true)))
      (AttestationConfig.default [1]) exRequest exOps uid a := by
    rw [C54_builds_iff]
    · refine ⟨by decide, by decide, ?_, rfl, rfl, ⟨_, List.mem_cons_self⟩, ⟨_,
        List.mem_cons_of_mem _ List.mem_cons_self⟩⟩
      intro v hv
      obtain rfl := Option.some.inj hv
      rfl
    · intro s hs m
      obtain rfl := Option.some.inj hs
      rfl
  obtain ⟨a, ha⟩ := hb
  obtain ⟨hh, sg, -, -, -, -, -, -, k1, k2, -⟩ := C54_contents _ _ _ _ _ a ha
  have hc : a.body.fieldCount ≤ 2 ^ 32 := by
    have h1 := congrArg List.length k1
    have h2 := congrArg List.length k2
    rw [List.length_map] at h1 h2
    rw [Body.fieldCount, h1, h2]
    decide
  obtain ⟨p, h1, h2⟩ := C118_attestation _ exCrypto_lawful exCalls exCalls_builtIn true _ exProvider_ok.1 cert cert _ _ _ _ _ _
    a ha hc
  exact ⟨a, p, ha, h1, h2⟩

/-- A key that signs the digests of one header only. -/
def exOnly (hd : Header) : Crypto := exCrypto fun _ d => d == pad32 hd.bcs || d == pad32 (0 :: hd.bcs)

/-- Example for `C119_only_signed` and `C119_header_signed`: such a key is unforgeable and has a valid signature. -/
example (hd : Header) : Unforgeable (exOnly hd) ⟨1, [2, 7]⟩ (Digests (exOnly hd) 1 [hd]) ∧
    Valid (exOnly hd) 1 ⟨1, [2, 7]⟩ hd.bcs (exSign 7 (pad32 hd.bcs)).1 := by
  refine ⟨⟨fun _ vk d s _ h => ?_, fun h => absurd h (by decide)⟩, ?_⟩
  · have h' : (s.1 == (exSign vk d).1 && (d == pad32 hd.bcs || d == pad32 (0 :: hd.bcs))) = true := h
    simp only [Bool.and_eq_true, Bool.or_eq_true, beq_iff_eq] at h'
    refine ⟨hd, List.mem_cons_self, ?_⟩
    rcases h'.2 with h2 | h2
    · exact .inl h2
    · exact .inr ⟨rfl, h2⟩
  · refine .k1 _ _ _ (7 : Byte) (exSign 7 (pad32 hd.bcs)) rfl (exCurve_sig _ _ _) ?_
    have : ((exSign 7 (pad32 hd.bcs)).1 == (exSign 7 (pad32 hd.bcs)).1 &&
      (pad32 hd.bcs == pad32 hd.bcs || pad32 hd.bcs == pad32 (0 :: hd.bcs))) = true := by simp
    exact this

end Tlsn.Signing
