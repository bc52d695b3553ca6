import Verif.Attestation.Model

/-! # The signature algorithms of attestations

crates/attestation/src/signing.rs: identifiers, the providers of signers and of verifiers, and the three built-in algorithms.
The elliptic curves (crates `k256` and `p256`) and the hash functions are parameters. -/

namespace Tlsn.Signing

/-- What signing.rs uses of `k256::ecdsa` or `p256::ecdsa`: keys, signatures, their encodings, and signing and verifying of
hashed messages. `sign` of a message hashes it with SHA-256 (crates/attestation/src/signing.rs:285, 322, 361, 398). Signing without recovery cannot fail
here; the code panics if it does. -/
structure Ecdsa where
  /-- `SigningKey`. -/
  SK : Type
  /-- `VerifyingKey`. -/
  VK : Type
  /-- `Signature`. -/
  Sg : Type
  skFromSlice : Bytes → Option SK
  vkOf : SK → VK
  vkToSec1 : VK → Bytes
  vkFromSec1 : Bytes → Option VK
  sgToVec : Sg → Bytes
  sgFromSlice : Bytes → Option Sg
  signPrehash : SK → Bytes → Sg
  signPrehashRecoverable : SK → Bytes → Option (Sg × Byte)
  verifyPrehash : VK → Bytes → Sg → Bool

/-- The two curves and the two hash functions. -/
structure Crypto where
  k256 : Ecdsa
  p256 : Ecdsa
  sha256 : Bytes → Bytes
  keccak256 : Bytes → Bytes

/-! ## Identifiers -/

/-- crates/attestation/src/signing.rs:15 `KeyAlgId::K256`. -/
def keyK256 : KeyAlgId := 1
/-- crates/attestation/src/signing.rs:17 `KeyAlgId::P256`. -/
def keyP256 : KeyAlgId := 2

/-- crates/attestation/src/signing.rs:28-32 `KeyAlgId::new`: `none` is the failed assertion. -/
def newKeyAlgId (id : Byte) : Option KeyAlgId := if 128 ≤ id then some id else none

/-- crates/attestation/src/signing.rs:56 `SignatureAlgId::SECP256K1`. -/
def secp256k1 : SignatureAlgId := 1
/-- crates/attestation/src/signing.rs:58 `SignatureAlgId::SECP256R1`. -/
def secp256r1 : SignatureAlgId := 2
/-- crates/attestation/src/signing.rs:63 `SignatureAlgId::SECP256K1ETH`. -/
def secp256k1eth : SignatureAlgId := 3

/-- crates/attestation/src/signing.rs:74-78 `SignatureAlgId::new`: `none` is the failed assertion. -/
def newSignatureAlgId (id : Byte) : Option SignatureAlgId := if 128 ≤ id then some id else none

/-! ## The built-in signers -/

/-- crates/attestation/src/signing.rs:279-301: the signer for secp256k1 with the key `k`. -/
def k1Signer (C : Crypto) (k : C.k256.SK) : Signer where
  alg := secp256k1
  verifyingKey := ⟨keyK256, C.k256.vkToSec1 (C.k256.vkOf k)⟩
  sign msg := some ⟨secp256k1, C.k256.sgToVec (C.k256.signPrehash k (C.sha256 msg))⟩

/-- crates/attestation/src/signing.rs:355-377: the signer for secp256r1 with the key `k`. -/
def r1Signer (C : Crypto) (k : C.p256.SK) : Signer where
  alg := secp256r1
  verifyingKey := ⟨keyP256, C.p256.vkToSec1 (C.p256.vkOf k)⟩
  sign msg := some ⟨secp256r1, C.p256.sgToVec (C.p256.signPrehash k (C.sha256 msg))⟩

/-- crates/attestation/src/signing.rs:431-476: the signer for Ethereum with the key `k`. -/
def ethSigner (C : Crypto) (k : C.k256.SK) : Signer where
  alg := secp256k1eth
  verifyingKey := ⟨keyK256, C.k256.vkToSec1 (C.k256.vkOf k)⟩
  sign msg :=
    match C.k256.signPrehashRecoverable k (C.keccak256 msg) with
    | none => none
    | some (sig, recid) =>
      if recid > 1 then none
      else some ⟨secp256k1eth, C.k256.sgToVec sig ++ [recid + 27]⟩

/-- crates/attestation/src/signing.rs:272-276 `Secp256k1Signer::new`. -/
def newK1 (C : Crypto) (key : Bytes) : Option Signer := (C.k256.skFromSlice key).map (k1Signer C)
/-- crates/attestation/src/signing.rs:348-352 `Secp256r1Signer::new`. -/
def newR1 (C : Crypto) (key : Bytes) : Option Signer := (C.p256.skFromSlice key).map (r1Signer C)
/-- crates/attestation/src/signing.rs:424-428 `Secp256k1EthSigner::new`. -/
def newEth (C : Crypto) (key : Bytes) : Option Signer := (C.k256.skFromSlice key).map (ethSigner C)

/-! ## The built-in verifiers -/

/-- crates/attestation/src/signing.rs:216-222 `SignatureVerifier`. -/
structure Verifier where
  alg : SignatureAlgId
  verify : SigVerifier

/-- crates/attestation/src/signing.rs:306-330 `Secp256k1Verifier`. -/
def k1Verifier (C : Crypto) : Verifier where
  alg := secp256k1
  verify key msg sig :=
    if key.alg ≠ keyK256 then false
    else match C.k256.vkFromSec1 key.data with
    | none => false
    | some vk =>
      match C.k256.sgFromSlice sig with
      | none => false
      | some s => C.k256.verifyPrehash vk (C.sha256 msg) s

/-- crates/attestation/src/signing.rs:382-406 `Secp256r1Verifier`. -/
def r1Verifier (C : Crypto) : Verifier where
  alg := secp256r1
  verify key msg sig :=
    if key.alg ≠ keyP256 then false
    else match C.p256.vkFromSec1 key.data with
    | none => false
    | some vk =>
      match C.p256.sgFromSlice sig with
      | none => false
      | some s => C.p256.verifyPrehash vk (C.sha256 msg) s

/-- crates/attestation/src/signing.rs:481-516 `Secp256k1EthVerifier`. -/
def ethVerifier (C : Crypto) : Verifier where
  alg := secp256k1eth
  verify key msg sig :=
    if key.alg ≠ keyK256 then false
    else if sig.length ≠ 65 then false
    else match C.k256.vkFromSec1 key.data with
    | none => false
    | some vk =>
      match C.k256.sgFromSlice (sig.take 64) with
      | none => false
      | some s => C.k256.verifyPrehash vk (C.keccak256 msg) s

/-! ## Providers -/

/-- A `HashMap` with keys `SignatureAlgId`: its entries, with different keys. -/
abbrev AlgMap (α : Type) := List (SignatureAlgId × α)

/-- `HashMap::insert`. -/
def AlgMap.insert {α : Type} (m : AlgMap α) (k : SignatureAlgId) (v : α) : AlgMap α :=
  (k, v) :: m.filter fun e => e.1 ≠ k

/-- `HashMap::get`. -/
def AlgMap.get {α : Type} (m : AlgMap α) (k : SignatureAlgId) : Option α := (m.find? fun e => e.1 = k).map (·.2)

/-- crates/attestation/src/signing.rs:103-106 `SignerProvider`. -/
structure SignerProvider where
  signers : AlgMap Signer

/-- crates/attestation/src/signing.rs:103 `SignerProvider`, its derived `Default`. -/
def SignerProvider.default : SignerProvider := ⟨[]⟩

/-- crates/attestation/src/signing.rs:110-112 `supported_algs`. -/
def SignerProvider.supportedAlgs (p : SignerProvider) : List SignatureAlgId := p.signers.map (·.1)

/-- crates/attestation/src/signing.rs:115-117 `set_signer`. -/
def SignerProvider.setSigner (p : SignerProvider) (s : Signer) : SignerProvider := ⟨p.signers.insert s.alg s⟩

/-- crates/attestation/src/signing.rs:141-149 `get`. -/
def SignerProvider.get (p : SignerProvider) (alg : SignatureAlgId) : Option Signer := p.signers.get alg

/-- The calls that configure signers (crates/attestation/src/signing.rs:115-138). -/
inductive SignerCall where
  | setSigner (s : Signer)
  | setSecp256k1 (key : Bytes)
  | setSecp256r1 (key : Bytes)
  | setSecp256k1eth (key : Bytes)

/-- crates/attestation/src/signing.rs:120-124 `set_secp256k1`: the provider and whether the call succeeded. -/
def SignerProvider.setSecp256k1 (C : Crypto) (p : SignerProvider) (key : Bytes) : SignerProvider × Bool :=
  match newK1 C key with
  | none => (p, false)
  | some s => (p.setSigner s, true)

/-- crates/attestation/src/signing.rs:127-131 `set_secp256r1`. -/
def SignerProvider.setSecp256r1 (C : Crypto) (p : SignerProvider) (key : Bytes) : SignerProvider × Bool :=
  match newR1 C key with
  | none => (p, false)
  | some s => (p.setSigner s, true)

/-- crates/attestation/src/signing.rs:134-138 `set_secp256k1eth`. -/
def SignerProvider.setSecp256k1eth (C : Crypto) (p : SignerProvider) (key : Bytes) : SignerProvider × Bool :=
  match newEth C key with
  | none => (p, false)
  | some s => (p.setSigner s, true)

/-- One configuring call. -/
def SignerProvider.call (C : Crypto) (p : SignerProvider) : SignerCall → SignerProvider × Bool
  | .setSigner s => (p.setSigner s, true)
  | .setSecp256k1 key => p.setSecp256k1 C key
  | .setSecp256r1 key => p.setSecp256r1 C key
  | .setSecp256k1eth key => p.setSecp256k1eth C key

/-- The provider after a sequence of calls. -/
def SignerProvider.calls (C : Crypto) (p : SignerProvider) (ops : List SignerCall) : SignerProvider :=
  ops.foldl (fun p op => (p.call C op).1) p

/-- crates/attestation/src/signing.rs:170-172 `SignatureVerifierProvider`. -/
structure VerifierProvider where
  verifiers : AlgMap Verifier

/-- crates/attestation/src/signing.rs:174-187 `SignatureVerifierProvider::default`. -/
def VerifierProvider.default (C : Crypto) : VerifierProvider :=
  ⟨((AlgMap.insert [] secp256k1 (k1Verifier C)).insert secp256r1 (r1Verifier C)).insert secp256k1eth (ethVerifier C)⟩

/-- crates/attestation/src/signing.rs:191-193 `set_verifier`. -/
def VerifierProvider.setVerifier (p : VerifierProvider) (v : Verifier) : VerifierProvider :=
  ⟨p.verifiers.insert v.alg v⟩

/-- crates/attestation/src/signing.rs:196-204 `get`. -/
def VerifierProvider.get (p : VerifierProvider) (alg : SignatureAlgId) : Option Verifier := p.verifiers.get alg

/-- crates/attestation/src/provider.rs:18-36 `CryptoProvider` with the two providers of signing.rs. -/
def cryptoProvider (hash : HashProvider) (cert : CertVerifier) (dom : Domains) (signer : SignerProvider)
    (signature : VerifierProvider) : CryptoProvider where
  hash := hash
  cert := cert
  signer := signer.get
  signature alg := (signature.get alg).map (·.verify)
  dom := dom

end Tlsn.Signing
