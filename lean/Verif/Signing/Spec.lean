import Verif.Signing.Model
import Verif.Attestation.Spec

/-! # Specification vocabulary for signature algorithms -/

namespace Tlsn.Signing

/-- What is assumed of a curve: encodings are read back, a signature has 64 bytes, and what a key signs is valid for its
verifying key. -/
structure Ecdsa.Lawful (E : Ecdsa) : Prop where
  key : ∀ vk, E.vkFromSec1 (E.vkToSec1 vk) = some vk
  sig : ∀ s, E.sgFromSlice (E.sgToVec s) = some s
  size : ∀ b s, E.sgFromSlice b = some s → b.length = 64
  signs : ∀ k d, E.verifyPrehash (E.vkOf k) d (E.signPrehash k d) = true
  signsRecoverable : ∀ k d s r, E.signPrehashRecoverable k d = some (s, r) → E.verifyPrehash (E.vkOf k) d s = true

/-- Both curves are lawful. -/
structure Crypto.Lawful (C : Crypto) : Prop where
  k256 : C.k256.Lawful
  p256 : C.p256.Lawful

/-- The documented meaning of the three algorithms: the key's algorithm, the encodings, the hash and the curve. -/
inductive Valid (C : Crypto) : SignatureAlgId → VerifyingKey → Bytes → Bytes → Prop
  /-- Algorithm 1: secp256k1 with SHA-256. -/
  | k1 (data m sig : Bytes) (vk : C.k256.VK) (s : C.k256.Sg) : C.k256.vkFromSec1 data = some vk →
      C.k256.sgFromSlice sig = some s → C.k256.verifyPrehash vk (C.sha256 m) s = true → Valid C 1 ⟨1, data⟩ m sig
  /-- Algorithm 2: secp256r1 with SHA-256. -/
  | r1 (data m sig : Bytes) (vk : C.p256.VK) (s : C.p256.Sg) : C.p256.vkFromSec1 data = some vk →
      C.p256.sgFromSlice sig = some s → C.p256.verifyPrehash vk (C.sha256 m) s = true → Valid C 2 ⟨2, data⟩ m sig
  /-- Algorithm 3: secp256k1 with Keccak-256, and one byte `v` after the signature, of any value. -/
  | eth (data m rs : Bytes) (v : Byte) (vk : C.k256.VK) (s : C.k256.Sg) : C.k256.vkFromSec1 data = some vk →
      rs.length = 64 → C.k256.sgFromSlice rs = some s → C.k256.verifyPrehash vk (C.keccak256 m) s = true →
      Valid C 3 ⟨1, data⟩ m (rs ++ [v])

/-- The key bytes a configuring call is given name a signer of the algorithm `alg`. -/
inductive Configures (C : Crypto) (alg : SignatureAlgId) : SignerCall → Signer → Prop
  | custom (s : Signer) : s.alg = alg → Configures C alg (.setSigner s) s
  | k1 (key : Bytes) (k : C.k256.SK) : alg = 1 → C.k256.skFromSlice key = some k →
      Configures C alg (.setSecp256k1 key) (k1Signer C k)
  | r1 (key : Bytes) (k : C.p256.SK) : alg = 2 → C.p256.skFromSlice key = some k →
      Configures C alg (.setSecp256r1 key) (r1Signer C k)
  | eth (key : Bytes) (k : C.k256.SK) : alg = 3 → C.k256.skFromSlice key = some k →
      Configures C alg (.setSecp256k1eth key) (ethSigner C k)

/-- The call configures no signer of the algorithm `alg`. -/
def Skips (C : Crypto) (alg : SignatureAlgId) (op : SignerCall) : Prop := ∀ s, ¬ Configures C alg op s

/-- The calls configure built-in signers only. -/
def BuiltIn (ops : List SignerCall) : Prop := ∀ s, SignerCall.setSigner s ∉ ops

/-- The digests the holder of a key lets be signed, for the headers `signed`: those of the algorithms the key serves. -/
def Digests (C : Crypto) (k : KeyAlgId) (signed : List Header) (d : Bytes) : Prop :=
  ∃ hd ∈ signed, d = C.sha256 hd.bcs ∨ (k = 1 ∧ d = C.keccak256 hd.bcs)

/-- Two different messages with the same digest, under one of the hash functions or one under each. -/
def Collision (C : Crypto) : Prop :=
  ∃ m m' : Bytes, m ≠ m' ∧ (C.sha256 m = C.sha256 m' ∨ C.keccak256 m = C.keccak256 m' ∨ C.sha256 m = C.keccak256 m')

/-- Nobody can make a valid signature for the key of a digest other than those in `ok`. -/
def Unforgeable (C : Crypto) (k : VerifyingKey) (ok : Bytes → Prop) : Prop :=
  (k.alg = 1 → ∀ vk d s, C.k256.vkFromSec1 k.data = some vk → C.k256.verifyPrehash vk d s = true → ok d) ∧
  (k.alg = 2 → ∀ vk d s, C.p256.vkFromSec1 k.data = some vk → C.p256.verifyPrehash vk d s = true → ok d)

end Tlsn.Signing
