import Verif.Attestation.Bcs
import Verif.Merkle.Model

/-!
# Model of crates/attestation and of crates/core/src/connection.rs

Signature schemes, X.509 path validation and the domain separator constants are parameters.
-/

namespace Tlsn

/-! ## Data types -/

/-- crates/attestation/src/signing.rs:11 `KeyAlgId(u8)`. -/
abbrev KeyAlgId := Byte
/-- crates/attestation/src/signing.rs:52 `SignatureAlgId(u8)`. -/
abbrev SignatureAlgId := Byte

/-- crates/attestation/src/signing.rs:225-231 `VerifyingKey`. -/
structure VerifyingKey where
  alg : KeyAlgId
  data : Bytes
  deriving DecidableEq, Repr

/-- crates/attestation/src/signing.rs:249-255 `Signature`. -/
structure Signature where
  alg : SignatureAlgId
  data : Bytes
  deriving DecidableEq, Repr

/-- crates/core/src/connection.rs:14-19 `TlsVersion`. -/
inductive TlsVersion where
  | v12
  | v13
  deriving DecidableEq, Repr

/-- crates/core/src/connection.rs:241-248 `ConnectionInfo`. -/
structure ConnectionInfo where
  time : Nat
  version : TlsVersion
  transcriptLength : TranscriptLength
  deriving DecidableEq, Repr

/-- crates/core/src/connection.rs:203-209 `ServerEphemKey`; `KeyType` has the single value SECP256R1
(crates/core/src/connection.rs:112-115), so the field `typ` is left out. -/
structure ServerEphemKey where
  key : Bytes
  deriving DecidableEq, Repr

/-- crates/attestation/src/extension.rs:9-14 `Extension`. -/
structure Extension where
  id : Bytes
  value : Bytes
  deriving DecidableEq, Repr

/-- crates/attestation/src/connection.rs:59 `ServerCertCommitment(TypedHash)`. -/
structure ServerCertCommitment where
  hash : TypedHash
  deriving DecidableEq, Repr

/-- crates/attestation/src/lib.rs:278-283 `Field<T>`; `FieldId` is a `u32` (crates/attestation/src/lib.rs:290). -/
structure Field (α : Type) where
  id : Nat
  data : α
  deriving DecidableEq

/-- crates/attestation/src/lib.rs:336-343 `Body`. -/
structure Body where
  verifyingKey : Field VerifyingKey
  connectionInfo : Field ConnectionInfo
  serverEphemeralKey : Field ServerEphemKey
  certCommitment : Field ServerCertCommitment
  extensions : List (Field Extension)
  transcriptCommitments : List (Field PlaintextHash)
  deriving DecidableEq

/-- crates/attestation/src/lib.rs:323-330 `Header`; `Uid([u8; 16])` (crates/attestation/src/lib.rs:257), `Version(u32)`
(crates/attestation/src/lib.rs:273). -/
structure Header where
  id : Vector Byte 16
  version : Nat
  root : TypedHash
  deriving DecidableEq

/-- crates/attestation/src/lib.rs:438-445 `Attestation`. -/
structure Attestation where
  signature : Signature
  header : Header
  body : Body
  deriving DecidableEq

/-! ## Canonical serialization -/

/-- `TypedHash` (crates/core/src/hash.rs:98-104; `Hash` serializes as a sequence, crates/core/src/hash.rs:124-131). -/
def TypedHash.bcs (h : TypedHash) : Bytes := [h.alg] ++ bcsBytes h.value

/-- Derived `Serialize` of `VerifyingKey` (crates/attestation/src/signing.rs:224-229). -/
def VerifyingKey.bcs (k : VerifyingKey) : Bytes := [k.alg] ++ bcsBytes k.data

/-- Derived `Serialize` of `TlsVersion`: the variant index (crates/core/src/connection.rs:12-19). -/
def TlsVersion.bcs : TlsVersion → Bytes
  | .v12 => [0]
  | .v13 => [1]

/-- Derived `Serialize` of `ConnectionInfo` (`u64`, enum, two `u32`) (crates/core/src/connection.rs:240-249). -/
def ConnectionInfo.bcs (c : ConnectionInfo) : Bytes :=
  leBytes 8 c.time ++ (c.version.bcs ++
    (leBytes 4 c.transcriptLength.sent ++ leBytes 4 c.transcriptLength.received))

/-- Derived `Serialize` of `ServerEphemKey`: the only `KeyType` variant, then the key (crates/core/src/connection.rs:202-208). -/
def ServerEphemKey.bcs (k : ServerEphemKey) : Bytes := [0] ++ bcsBytes k.key

/-- Derived `Serialize` of the newtype `ServerCertCommitment` (crates/attestation/src/connection.rs:58-59). -/
def ServerCertCommitment.bcs (c : ServerCertCommitment) : Bytes := c.hash.bcs

/-- Derived `Serialize` of `Extension` (crates/attestation/src/extension.rs:8-14). -/
def Extension.bcs (e : Extension) : Bytes := bcsBytes e.id ++ bcsBytes e.value

/-- Derived `Serialize` of `Direction` (crates/core/src/transcript.rs:438-444). -/
def Direction.bcs : Direction → Bytes
  | .sent => [0]
  | .received => [1]

/-- `RangeSet<usize>` (a dependency): taken to be the sequence of its ranges, each start and end. -/
def RangeSet.bcs (s : RangeSet) : Bytes :=
  bcsList (fun r : Rng => leBytes 8 r.1 ++ leBytes 8 r.2) s.ranges

/-- Derived `Serialize` of `TranscriptCommitment::Hash(PlaintextHash)` (crates/core/src/transcript/commit.rs:36-41,
crates/core/src/transcript/hash.rs:21-29). -/
def PlaintextHash.bcs (c : PlaintextHash) : Bytes :=
  [0] ++ (c.direction.bcs ++ (c.idx.bcs ++ c.hash.bcs))

/-- Derived `Serialize` of `Header` (crates/attestation/src/lib.rs:322-330). -/
def Header.bcs (h : Header) : Bytes := h.id.toList ++ (leBytes 4 h.version ++ h.root.bcs)

/-! ## Domain separated hashing -/

/-- The types with a domain separator (crates/attestation/src/serialize.rs:29-55,
`impl_domain_separator!`) that are hashed. -/
inductive DomainTag where
  | verifyingKey
  | connectionInfo
  | serverEphemKey
  | serverCertCommitment
  | extension
  | transcriptCommitment
  | serverCertOpening
  deriving DecidableEq, Repr

/-- `DomainSeparator::domain`: the first 16 bytes of the BLAKE3 hash of the type name, a parameter (crates/attestation/src/serialize.rs:27-43). -/
abbrev Domains := DomainTag → Bytes

/-- The data of one body field (crates/attestation/src/lib.rs:336-343). -/
inductive FieldData where
  | verifyingKey (k : VerifyingKey)
  | connectionInfo (c : ConnectionInfo)
  | serverEphemKey (k : ServerEphemKey)
  | certCommitment (c : ServerCertCommitment)
  | extension (e : Extension)
  | commitment (c : PlaintextHash)
  deriving DecidableEq

/-- The domain tag of a field's type (crates/attestation/src/serialize.rs:27-43). -/
def FieldData.tag : FieldData → DomainTag
  | .verifyingKey _ => .verifyingKey
  | .connectionInfo _ => .connectionInfo
  | .serverEphemKey _ => .serverEphemKey
  | .certCommitment _ => .serverCertCommitment
  | .extension _ => .extension
  | .commitment _ => .transcriptCommitment

/-- The canonical serialization of a field's data (crates/attestation/src/serialize.rs:9-18). -/
def FieldData.bcs : FieldData → Bytes
  | .verifyingKey k => k.bcs
  | .connectionInfo c => c.bcs
  | .serverEphemKey k => k.bcs
  | .certCommitment c => c.bcs
  | .extension e => e.bcs
  | .commitment c => c.bcs

/-- crates/attestation/src/hash.rs:15-17 `hash_separated`: what is hashed. -/
def FieldData.preimage (dom : Domains) (f : FieldData) : Bytes := dom f.tag ++ f.bcs

/-- The fields of a body in the order of `hash_fields` (crates/attestation/src/lib.rs:380-408). -/
def Body.fields (b : Body) : List (Nat × FieldData) :=
  [(b.verifyingKey.id, .verifyingKey b.verifyingKey.data),
   (b.connectionInfo.id, .connectionInfo b.connectionInfo.data),
   (b.serverEphemeralKey.id, .serverEphemKey b.serverEphemeralKey.data),
   (b.certCommitment.id, .certCommitment b.certCommitment.data)] ++
  b.extensions.map (fun f => (f.id, .extension f.data)) ++
  b.transcriptCommitments.map (fun f => (f.id, .commitment f.data))

/-- crates/attestation/src/lib.rs:378-413 `Body::hash_fields`. -/
def Body.hashFields (dom : Domains) (b : Body) (h : HashAlg) : List (Nat × Digest) :=
  sortLeaves (b.fields.map fun f => (f.1, h.hash (f.2.preimage dom)))

/-- crates/attestation/src/lib.rs:359-368 `Body::root`; `none` is a panic. -/
def Body.root (dom : Domains) (b : Body) (h : HashAlg) : Option TypedHash :=
  (MerkleTree.mk h.id ((b.hashFields dom h).map (·.2))).root h

/-! ## Handshake data -/

/-- crates/core/src/connection.rs:123-135 `SignatureAlgorithm`. -/
inductive SignatureAlgorithm where
  | ecdsaP256Sha256
  | ecdsaP256Sha384
  | ecdsaP384Sha256
  | ecdsaP384Sha384
  | ed25519
  | rsaPkcs1Sha256
  | rsaPkcs1Sha384
  | rsaPkcs1Sha512
  | rsaPssSha256
  | rsaPssSha384
  | rsaPssSha512
  deriving DecidableEq, Repr

/-- The variant index of `SignatureAlgorithm` (crates/core/src/connection.rs:123-137). -/
def SignatureAlgorithm.index : SignatureAlgorithm → Nat
  | .ecdsaP256Sha256 => 0
  | .ecdsaP256Sha384 => 1
  | .ecdsaP384Sha256 => 2
  | .ecdsaP384Sha384 => 3
  | .ed25519 => 4
  | .rsaPkcs1Sha256 => 5
  | .rsaPkcs1Sha384 => 6
  | .rsaPkcs1Sha512 => 7
  | .rsaPssSha256 => 8
  | .rsaPssSha384 => 9
  | .rsaPssSha512 => 10

/-- crates/core/src/connection.rs:287-295 `HandshakeData`, with `CertBindingV1_2` (260-267) and
`ServerSignature` (193-199) inlined. -/
structure HandshakeData where
  certs : List Bytes
  sigAlg : SignatureAlgorithm
  sig : Bytes
  clientRandom : Vector Byte 32
  serverRandom : Vector Byte 32
  serverEphemeralKey : ServerEphemKey
  deriving DecidableEq

/-- crates/core/src/connection.rs:38 `ServerName::Dns`. -/
abbrev ServerName := Bytes

/-- X.509 validation with the configured trust anchors (crates/core/src/webpki.rs:121-158 and the
`webpki` crate), as parameters: parsing of the end entity certificate, path validation at a time, match
of the subject name, and signature verification with the certificate's key. -/
structure CertVerifier where
  parses : Bytes → Bool
  path : Bytes → List Bytes → Nat → Bool
  nameOk : Bytes → ServerName → Bool
  sigOk : Bytes → SignatureAlgorithm → Bytes → Bytes → Bool

/-- crates/core/src/connection.rs:378-390 `HandshakeVerificationError`. -/
inductive HandshakeError where
  | ephemeralKey
  | missingCerts
  | serverCert
  | invalidEndEntity
  | signature
  deriving DecidableEq, Repr

/-- crates/core/src/webpki.rs:121-158 `verify_server_cert`. -/
def CertVerifier.verifyServerCert (v : CertVerifier) (endEntity : Bytes) (intermediates : List Bytes)
    (name : ServerName) (time : Nat) : Bool :=
  if !v.parses endEntity then false
  else if !v.path endEntity intermediates time then false
  else v.nameOk endEntity name

/-- crates/core/src/connection.rs:213-222 `kx_params`: curve type 3, group 0x0017, key with a `u8`
length (`PayloadU8::encode` truncates the length to one byte). -/
def ServerEphemKey.kxParams (k : ServerEphemKey) : Bytes :=
  [3, 0, 0x17] ++ (UInt8.ofNat k.key.length :: k.key)

/-- crates/core/src/connection.rs:305-373 `HandshakeData::verify`. -/
def HandshakeData.verify (d : HandshakeData) (v : CertVerifier) (time : Nat) (key : ServerEphemKey)
    (name : ServerName) : Except HandshakeError Unit :=
  if key ≠ d.serverEphemeralKey then .error .ephemeralKey
  else match d.certs with
  | [] => .error .missingCerts
  | endEntity :: intermediates =>
    if !v.verifyServerCert endEntity intermediates name time then .error .serverCert
    else
      let message := d.clientRandom.toList ++ (d.serverRandom.toList ++ key.kxParams)
      if !v.parses endEntity then .error .invalidEndEntity
      else if !v.sigOk endEntity d.sigAlg message d.sig then .error .signature
      else .ok ()

/-- Derived `Serialize` of `HandshakeData` (crates/core/src/connection.rs:286-295). -/
def HandshakeData.bcs (d : HandshakeData) : Bytes :=
  bcsList bcsBytes d.certs ++ (uleb d.sigAlg.index ++ (bcsBytes d.sig ++
    ([0] ++ (d.clientRandom.toList ++ (d.serverRandom.toList ++ d.serverEphemeralKey.bcs)))))

/-- crates/attestation/src/connection.rs:33 `ServerCertOpening(Blinded<HandshakeData>)`. -/
structure ServerCertOpening where
  data : HandshakeData
  blinder : Blinder
  deriving DecidableEq

/-- crates/attestation/src/connection.rs:44-49 `commit`: what is hashed. -/
def ServerCertOpening.preimage (dom : Domains) (o : ServerCertOpening) : Bytes :=
  dom .serverCertOpening ++ (o.data.bcs ++ o.blinder.toList)

/-- crates/attestation/src/connection.rs:44-49 `commit`. -/
def ServerCertOpening.commit (dom : Domains) (o : ServerCertOpening) (h : HashAlg) :
    ServerCertCommitment := ⟨⟨h.id, h.hash (o.preimage dom)⟩⟩

/-- crates/attestation/src/connection.rs:65-68 `ServerIdentityProof`. -/
structure ServerIdentityProof where
  name : ServerName
  opening : ServerCertOpening
  deriving DecidableEq

/-- crates/attestation/src/connection.rs:135-139 `ErrorKind`. -/
inductive IdentityError where
  | provider
  | commitment
  | certificate (e : HandshakeError)
  deriving DecidableEq, Repr

/-! ## Provider -/

/-- crates/attestation/src/signing.rs:158-167 `Signer`. -/
structure Signer where
  alg : SignatureAlgId
  verifyingKey : VerifyingKey
  sign : Bytes → Option Signature

/-- crates/attestation/src/signing.rs:221 `SignatureVerifier::verify`. -/
abbrev SigVerifier := VerifyingKey → Bytes → Bytes → Bool

/-- crates/attestation/src/provider.rs:18-34 `CryptoProvider`, and the domain separators. -/
structure CryptoProvider where
  hash : HashProvider
  cert : CertVerifier
  signer : SignatureAlgId → Option Signer
  signature : SignatureAlgId → Option SigVerifier
  dom : Domains

/-- crates/attestation/src/connection.rs:83-105 `verify_with_provider`. -/
def ServerIdentityProof.verify (p : ServerIdentityProof) (c : CryptoProvider) (time : Nat)
    (key : ServerEphemKey) (commitment : ServerCertCommitment) : Except IdentityError ServerName :=
  match c.hash commitment.hash.alg with
  | none => .error .provider
  | some h =>
    if commitment.hash.value ≠ h.hash (p.opening.preimage c.dom) then .error .commitment
    else match p.opening.data.verify c.cert time key p.name with
    | .error e => .error (.certificate e)
    | .ok () => .ok p.name

/-! ## Attestation proofs -/

/-- crates/attestation/src/proof.rs:82-88 `BodyProof`. -/
structure BodyProof where
  body : Body
  proof : MerkleProof
  deriving DecidableEq

/-- crates/attestation/src/proof.rs:18-22 `AttestationProof`. -/
structure AttestationProof where
  signature : Signature
  header : Header
  body : BodyProof
  deriving DecidableEq

/-- crates/attestation/src/proof.rs:178-182 `ErrorKind`. -/
inductive AttestationError where
  | provider
  | signature
  | body (e : MerkleError)
  deriving DecidableEq, Repr

/-- crates/attestation/src/proof.rs:93-109 `BodyProof::new`; `none` is a failed assertion of
`MerkleTree::proof`. -/
def BodyProof.new (dom : Domains) (h : HashAlg) (b : Body) : Option BodyProof :=
  let fields := b.hashFields dom h
  ((MerkleTree.mk h.id (fields.map (·.2))).proof h (fields.map (·.1))).map fun p => ⟨b, p⟩

/-- crates/attestation/src/proof.rs:25-41 `AttestationProof::new`. -/
def AttestationProof.new (c : CryptoProvider) (a : Attestation) :
    Outcome AttestationError AttestationProof :=
  match c.hash a.header.root.alg with
  | none => .err .provider
  | some h => do
    let body ← Outcome.ofPanic (BodyProof.new c.dom h a.body)
    .ok ⟨a.signature, a.header, body⟩

/-- crates/attestation/src/proof.rs:116-137 `BodyProof::verify_with_provider`.  `checked`: see
`MerkleProof.verify`. -/
def BodyProof.verify (checked : Bool) (p : BodyProof) (c : CryptoProvider) (header : Header) :
    Except AttestationError Body :=
  match c.hash header.root.alg with
  | none => .error .provider
  | some h =>
    match p.proof.verify checked h header.root (p.body.hashFields c.dom h) with
    | .error e => .error (.body e)
    | .ok () => .ok p.body

/-- crates/attestation/src/proof.rs:54-77 `AttestationProof::verify`. -/
def AttestationProof.verify (checked : Bool) (p : AttestationProof) (c : CryptoProvider) :
    Except AttestationError Attestation :=
  match c.signature p.signature.alg with
  | none => .error .provider
  | some sv =>
    match p.body.verify checked c p.header with
    | .error e => .error e
    | .ok body =>
      if sv body.verifyingKey.data p.header.bcs p.signature.data then
        .ok ⟨p.signature, p.header, body⟩
      else .error .signature

/-! ## Presentations -/

/-- crates/attestation/src/presentation.rs:46-50 `Presentation`. -/
structure Presentation where
  attestation : AttestationProof
  identity : Option ServerIdentityProof
  transcript : Option TranscriptProof
  deriving DecidableEq

/-- crates/attestation/src/presentation.rs:113-128 `PresentationOutput`. -/
structure PresentationOutput where
  attestation : Attestation
  serverName : Option ServerName
  connectionInfo : ConnectionInfo
  transcript : Option PartialTranscript
  extensions : List Extension
  deriving DecidableEq

/-- The error sources of `Presentation::verify` (crates/attestation/src/presentation.rs:76, 87, 97). -/
inductive PresentationError where
  | attestation (e : AttestationError)
  | identity (e : IdentityError)
  | transcript (e : ProofError)
  deriving DecidableEq, Repr

/-- crates/attestation/src/presentation.rs:78-87: the optional identity proof. -/
def verifyIdentity (c : CryptoProvider) (b : Body) :
    Option ServerIdentityProof → Except IdentityError (Option ServerName)
  | none => .ok none
  | some p => (p.verify c b.connectionInfo.data.time b.serverEphemeralKey.data
      b.certCommitment.data).map some

/-- crates/attestation/src/presentation.rs:89-97: the optional transcript proof. -/
def verifyTranscript (c : CryptoProvider) (b : Body) :
    Option TranscriptProof → Outcome ProofError (Option PartialTranscript)
  | none => .ok none
  | some p => do
    let t ← p.verify c.hash b.connectionInfo.data.transcriptLength
      (b.transcriptCommitments.map (·.data))
    .ok (some t)

/-- crates/attestation/src/presentation.rs:66-110 `Presentation::verify`. -/
def Presentation.verify (checked : Bool) (p : Presentation) (c : CryptoProvider) :
    Outcome PresentationError PresentationOutput :=
  match p.attestation.verify checked c with
  | .error e => .err (.attestation e)
  | .ok a =>
    match verifyIdentity c a.body p.identity with
    | .error e => .err (.identity e)
    | .ok name =>
      match verifyTranscript c a.body p.transcript with
      | .err e => .err (.transcript e)
      | .panic => .panic
      | .ok t => .ok ⟨a, name, a.body.connectionInfo.data, t, a.body.extensions.map (·.data)⟩

/-- crates/attestation/src/presentation.rs:130-135 `PresentationBuilder` (the attestation and the
provider are arguments of `build`). -/
structure PresentationBuilder where
  identity : Option ServerIdentityProof := none
  transcript : Option TranscriptProof := none

/-- crates/attestation/src/presentation.rs:148-151. -/
def PresentationBuilder.identityProof (b : PresentationBuilder) (p : ServerIdentityProof) :
    PresentationBuilder := { b with identity := some p }

/-- crates/attestation/src/presentation.rs:154-157. -/
def PresentationBuilder.transcriptProof (b : PresentationBuilder) (p : TranscriptProof) :
    PresentationBuilder := { b with transcript := some p }

/-- crates/attestation/src/presentation.rs:160-168 `build`. -/
def PresentationBuilder.build (b : PresentationBuilder) (c : CryptoProvider) (a : Attestation) :
    Outcome AttestationError Presentation := do
  let p ← AttestationProof.new c a
  .ok ⟨p, b.identity, b.transcript⟩

/-! ## Requests and the attestation builder -/

/-- crates/attestation/src/request.rs:33-38 `Request`. -/
structure Request where
  signatureAlg : SignatureAlgId
  hashAlg : HashAlgId
  serverCertCommitment : ServerCertCommitment
  extensions : List Extension
  deriving DecidableEq

/-- The error sites of `Request::validate` (crates/attestation/src/request.rs:52-99). -/
inductive ValidationError where
  | signatureAlg
  | hashAlg
  | certCommitment
  | extension
  | provider
  | signature
  deriving DecidableEq, Repr

/-- crates/attestation/src/request.rs:47-102 `Request::validate`. -/
def Request.validate (r : Request) (a : Attestation) (c : CryptoProvider) :
    Except ValidationError Unit :=
  if a.signature.alg ≠ r.signatureAlg then .error .signatureAlg
  else if a.header.root.alg ≠ r.hashAlg then .error .hashAlg
  else if a.body.certCommitment.data ≠ r.serverCertCommitment then .error .certCommitment
  else if ¬ ∀ e ∈ r.extensions, e ∈ a.body.extensions.map (·.data) then .error .extension
  else match c.signature a.signature.alg with
  | none => .error .provider
  | some sv =>
    if sv a.body.verifyingKey.data a.header.bcs a.signature.data then .ok ()
    else .error .signature

/-- crates/attestation/src/request/config.rs:7-12 `RequestConfig` (without the commitment
configuration, which `RequestBuilder` does not use). -/
structure RequestConfig where
  signatureAlg : SignatureAlgId := 1
  hashAlg : HashAlgId := HashAlgId.blake3
  extensions : List Extension := []

/-- crates/attestation/src/secrets.rs:12-18 `Secrets`. -/
structure Secrets where
  serverName : ServerName
  serverCertOpening : ServerCertOpening
  transcript : Transcript
  transcriptCommitments : List PlaintextHash
  transcriptCommitmentSecrets : List PlaintextHashSecret

/-- crates/attestation/src/request/builder.rs:13-20 `RequestBuilder`. -/
structure RequestBuilder where
  config : RequestConfig
  serverName : Option ServerName := none
  handshakeData : Option HandshakeData := none
  transcript : Option Transcript := none
  transcriptCommitments : List PlaintextHash := []
  transcriptCommitmentSecrets : List PlaintextHashSecret := []

/-- The errors of crates/attestation/src/request/builder.rs:81, 85, 89, 94. -/
inductive RequestBuilderError where
  | hashAlg
  | serverName
  | handshakeData
  | transcript
  deriving DecidableEq, Repr

/-- crates/attestation/src/request/builder.rs:65-116 `build`.  The blinder of
`ServerCertOpening::new` is an argument. -/
def RequestBuilder.build (b : RequestBuilder) (c : CryptoProvider) (blinder : Blinder) :
    Except RequestBuilderError (Request × Secrets) :=
  match c.hash b.config.hashAlg with
  | none => .error .hashAlg
  | some h => match b.serverName with
    | none => .error .serverName
    | some name => match b.handshakeData with
      | none => .error .handshakeData
      | some hd => match b.transcript with
        | none => .error .transcript
        | some t =>
          let opening : ServerCertOpening := ⟨hd, blinder⟩
          .ok (⟨b.config.signatureAlg, b.config.hashAlg, opening.commit c.dom h, b.config.extensions⟩,
            ⟨name, opening, t, b.transcriptCommitments, b.transcriptCommitmentSecrets⟩)

/-- crates/attestation/src/config.rs:45-49 `AttestationConfig`. -/
structure AttestationConfig where
  supportedSignatureAlgs : List SignatureAlgId
  supportedHashAlgs : List HashAlgId
  extensionValidator : Option (List Extension → Bool)

/-- crates/attestation/src/config.rs:83-98 and 145-151: the builder's defaults.  Extensions are
refused. -/
def AttestationConfig.default (sigAlgs : List SignatureAlgId) : AttestationConfig :=
  ⟨sigAlgs, [HashAlgId.sha256, HashAlgId.blake3, HashAlgId.keccak256], some fun e => e.isEmpty⟩

/-- crates/attestation/src/builder.rs:21-30 `Sign`. -/
structure SignState where
  signatureAlg : SignatureAlgId
  hashAlg : HashAlgId
  connectionInfo : Option ConnectionInfo
  serverEphemeralKey : Option ServerEphemKey
  certCommitment : ServerCertCommitment
  extensions : List Extension
  transcriptCommitments : List PlaintextHash

/-- crates/attestation/src/builder.rs:198-204 `ErrorKind`. -/
inductive AttestationBuilderError where
  | request
  | config
  | field
  | signature
  | extension
  deriving DecidableEq, Repr

/-- crates/attestation/src/builder.rs:49-93 `accept_request`. -/
def acceptRequest (config : AttestationConfig) (r : Request) :
    Except AttestationBuilderError SignState :=
  if r.signatureAlg ∉ config.supportedSignatureAlgs then .error .request
  else if r.hashAlg ∉ config.supportedHashAlgs then .error .request
  else if (config.extensionValidator.all fun v => v r.extensions) = false then .error .extension
  else .ok ⟨r.signatureAlg, r.hashAlg, none, none, r.serverCertCommitment, r.extensions, []⟩

/-- The setters (crates/attestation/src/builder.rs:98-122). -/
inductive AttBuilderOp where
  | connectionInfo (c : ConnectionInfo)
  | serverEphemeralKey (k : ServerEphemKey)
  | extension (e : Extension)
  | transcriptCommitments (cs : List PlaintextHash)

/-- crates/attestation/src/builder.rs:98-122: the setters overwrite, except `extension`, which
appends. -/
def SignState.apply (s : SignState) : AttBuilderOp → SignState
  | .connectionInfo c => { s with connectionInfo := some c }
  | .serverEphemeralKey k => { s with serverEphemeralKey := some k }
  | .extension e => { s with extensions := s.extensions ++ [e] }
  | .transcriptCommitments cs => { s with transcriptCommitments := cs }

/-- crates/attestation/src/lib.rs:292-299 `FieldId::next` repeated over a list: consecutive `u32`
identifiers from `n` (wrapping, as in release builds). -/
def assignIds {α : Type} : Nat → List α → List (Field α)
  | _, [] => []
  | n, a :: t => ⟨n, a⟩ :: assignIds ((n + 1) % 2 ^ 32) t

/-- crates/attestation/src/lib.rs:253 `VERSION`. -/
def attestationVersion : Nat := 0

/-- crates/attestation/src/builder.rs:143-163: the body. -/
def SignState.body (s : SignState) (vk : VerifyingKey) (ci : ConnectionInfo) (ek : ServerEphemKey) :
    Body :=
  { verifyingKey := ⟨0, vk⟩
    connectionInfo := ⟨1, ci⟩
    serverEphemeralKey := ⟨2, ek⟩
    certCommitment := ⟨3, s.certCommitment⟩
    extensions := assignIds 4 s.extensions
    transcriptCommitments := assignIds ((4 + s.extensions.length) % 2 ^ 32) s.transcriptCommitments }

/-- crates/attestation/src/builder.rs:125-187 `build`.  The random identifier is an argument. -/
def SignState.build (s : SignState) (c : CryptoProvider) (uid : Vector Byte 16) :
    Outcome AttestationBuilderError Attestation :=
  match c.hash s.hashAlg with
  | none => .err .config
  | some h => match c.signer s.signatureAlg with
    | none => .err .config
    | some signer => match s.connectionInfo with
      | none => .err .field
      | some ci => match s.serverEphemeralKey with
        | none => .err .field
        | some ek =>
          let body := s.body signer.verifyingKey ci ek
          match body.root c.dom h with
          | none => .panic
          | some root =>
            let header : Header := ⟨uid, attestationVersion, root⟩
            match signer.sign header.bcs with
            | none => .err .signature
            | some sig => .ok ⟨sig, header, body⟩

end Tlsn
