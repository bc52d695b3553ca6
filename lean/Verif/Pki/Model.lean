import Verif.Attestation.Model

/-! # Certificates and signatures of the server

crates/tls-core/src/verify.rs, by which the client of the MPC mode checks the server's certificates and its signature and
determines the algorithm of the signature that the leader records, and crates/core/src/webpki.rs, by which a verifier
checks them again.  The crates `webpki`, `ring` and `sct` are parameters. -/

namespace Tlsn.Pki

/-- The algorithm of a public key, as named in a certificate. -/
inductive KeyAlg where
  | p256
  | p384
  | ed25519
  | rsa
  | other (oid : Bytes)
  deriving DecidableEq, Repr

/-- `signature_alg_id` of an algorithm of `webpki::ring`: the identifiers of X.509, which for ECDSA name the hash and not
the curve (RFC 5758, section 3.2). -/
inductive SigId where
  | ecdsaSha256
  | ecdsaSha384
  | ed25519
  | rsaPkcs1Sha256
  | rsaPkcs1Sha384
  | rsaPkcs1Sha512
  | rsaPssSha256
  | rsaPssSha384
  | rsaPssSha512
  deriving DecidableEq, Repr

/-- `SignatureVerificationAlgorithm` of `rustls_pki_types`: `public_key_alg_id` and `signature_alg_id`. -/
structure RingAlg where
  key : KeyAlg
  sig : SigId
  deriving DecidableEq, Repr

/-- crates/core/src/connection.rs:336-358: the algorithm of `webpki::ring` with the name, which is the same for the names of
crates/tls-core/src/verify.rs:471-483. -/
def ringAlg : SignatureAlgorithm → RingAlg
  | .ecdsaP256Sha256 => ⟨.p256, .ecdsaSha256⟩
  | .ecdsaP256Sha384 => ⟨.p256, .ecdsaSha384⟩
  | .ecdsaP384Sha256 => ⟨.p384, .ecdsaSha256⟩
  | .ecdsaP384Sha384 => ⟨.p384, .ecdsaSha384⟩
  | .ed25519 => ⟨.ed25519, .ed25519⟩
  | .rsaPkcs1Sha256 => ⟨.rsa, .rsaPkcs1Sha256⟩
  | .rsaPkcs1Sha384 => ⟨.rsa, .rsaPkcs1Sha384⟩
  | .rsaPkcs1Sha512 => ⟨.rsa, .rsaPkcs1Sha512⟩
  | .rsaPssSha256 => ⟨.rsa, .rsaPssSha256⟩
  | .rsaPssSha384 => ⟨.rsa, .rsaPssSha384⟩
  | .rsaPssSha512 => ⟨.rsa, .rsaPssSha512⟩

/-- An error of `sct::verify_sct`, by whether it `should_be_fatal`. -/
structure SctError where
  fatal : Bool
  code : Nat
  deriving DecidableEq, Repr

/-- The crates `webpki`, `ring` and `sct`.  `keyAlg` is `none` if the key information of the certificate cannot be read.
`raw` is the check of a signature under the key of a certificate by an algorithm of `ring`.  `path` is `verify_for_usage`
for server authentication, at a time in seconds. -/
structure WebPki where
  parses : Bytes → Bool
  keyAlg : Bytes → Option KeyAlg
  raw : Bytes → SigId → Bytes → Bytes → Bool
  anchor : Bytes → Option Bytes
  path : List Bytes → Bytes → List Bytes → Nat → Bool
  nameOk : Bytes → ServerName → Bool
  sct : (logs : List Bytes) → (cert : Bytes) → (sct : Bytes) → (millis : Nat) → Except SctError Unit

/-- The errors of `webpki` that are told apart. -/
inductive PkiError where
  | badDer
  | unsupportedForKey
  | invalidSignature
  | unsupported
  | path
  | name
  | sct (e : SctError)
  | time
  | misbehaved
  deriving DecidableEq, Repr

/-- `EndEntityCert::verify_signature` of `webpki`: the algorithm must be one for the key of the certificate. -/
def WebPki.verifySignature (P : WebPki) (cert : Bytes) (alg : RingAlg) (message sig : Bytes) : Except PkiError Unit :=
  match P.keyAlg cert with
  | none => .error .badDer
  | some k =>
    if k ≠ alg.key then .error .unsupportedForKey
    else if P.raw cert alg.sig message sig then .ok ()
    else .error .invalidSignature

/-! ## Signatures in the client -/

/-- crates/tls-core/src/verify.rs:445-466 `convert_scheme` with the lists of 426-443; the numbers of the schemes are in
crates/tls-core/src/msgs/enums.rs:786-802. -/
def convertScheme (scheme : UInt16) : Except PkiError (List RingAlg) :=
  if scheme = 0x0403 then .ok [⟨.p256, .ecdsaSha256⟩, ⟨.p384, .ecdsaSha256⟩]
  else if scheme = 0x0503 then .ok [⟨.p256, .ecdsaSha384⟩, ⟨.p384, .ecdsaSha384⟩]
  else if scheme = 0x0807 then .ok [⟨.ed25519, .ed25519⟩]
  else if scheme = 0x0401 then .ok [⟨.rsa, .rsaPkcs1Sha256⟩]
  else if scheme = 0x0501 then .ok [⟨.rsa, .rsaPkcs1Sha384⟩]
  else if scheme = 0x0601 then .ok [⟨.rsa, .rsaPkcs1Sha512⟩]
  else if scheme = 0x0804 then .ok [⟨.rsa, .rsaPssSha256⟩]
  else if scheme = 0x0805 then .ok [⟨.rsa, .rsaPssSha384⟩]
  else if scheme = 0x0806 then .ok [⟨.rsa, .rsaPssSha512⟩]
  else .error .misbehaved

/-- crates/tls-core/src/verify.rs:486-513 `from_alg`: the first name whose identifier of the signature is the same; `unreachable!` if there is
none. -/
def fromAlg (alg : RingAlg) : Outcome PkiError SignatureAlgorithm :=
  let id := alg.sig
  if id = (ringAlg .ecdsaP256Sha256).sig then .ok .ecdsaP256Sha256
  else if id = (ringAlg .ecdsaP256Sha384).sig then .ok .ecdsaP256Sha384
  else if id = (ringAlg .ecdsaP384Sha256).sig then .ok .ecdsaP384Sha256
  else if id = (ringAlg .ecdsaP384Sha384).sig then .ok .ecdsaP384Sha384
  else if id = (ringAlg .ed25519).sig then .ok .ed25519
  else if id = (ringAlg .rsaPkcs1Sha256).sig then .ok .rsaPkcs1Sha256
  else if id = (ringAlg .rsaPkcs1Sha384).sig then .ok .rsaPkcs1Sha384
  else if id = (ringAlg .rsaPkcs1Sha512).sig then .ok .rsaPkcs1Sha512
  else if id = (ringAlg .rsaPssSha256).sig then .ok .rsaPssSha256
  else if id = (ringAlg .rsaPssSha384).sig then .ok .rsaPssSha384
  else if id = (ringAlg .rsaPssSha512).sig then .ok .rsaPssSha512
  else .panic

/-- crates/tls-core/src/verify.rs:529-552 `verify_sig_using_any_alg`: algorithms for other kinds of keys are skipped. -/
def WebPki.verifyAny (P : WebPki) (cert message sig : Bytes) : List RingAlg → Outcome PkiError SignatureAlgorithm
  | [] => .err .unsupported
  | alg :: algs =>
    match P.verifySignature cert alg message sig with
    | .ok () => fromAlg alg
    | .error .unsupportedForKey => P.verifyAny cert message sig algs
    | .error e => .err e

/-- crates/tls-core/src/verify.rs:517-527 `verify_sig_determine_alg`. -/
def WebPki.determineAlg (P : WebPki) (cert message : Bytes) (scheme : UInt16) (sig : Bytes) : Outcome PkiError SignatureAlgorithm :=
  if !P.parses cert then .err .badDer
  else match convertScheme scheme with
    | .error e => .err e
    | .ok algs => P.verifyAny cert message sig algs

/-- crates/tls-core/src/verify.rs:554-567 `verify_signed_struct`, which is `verify_tls12_signature` (102-109). -/
def WebPki.verifySignedStruct (P : WebPki) (message cert : Bytes) (scheme : UInt16) (sig : Bytes) : Outcome PkiError Unit :=
  match convertScheme scheme with
  | .error e => .err e
  | .ok algs =>
    if !P.parses cert then .err .badDer
    else P.verifyAny cert message sig algs >>= fun _ => .ok ()

/-- crates/tls-core/src/verify.rs:333-345 `verification_schemes`, which are offered to the server. -/
def verificationSchemes : List UInt16 := [0x0503, 0x0403, 0x0807, 0x0806, 0x0805, 0x0804, 0x0601, 0x0501, 0x0401]

/-- crates/tls-core/src/verify.rs:569-586 `convert_alg_tls13`. -/
def convertAlgTls13 (scheme : UInt16) : Except PkiError RingAlg :=
  if scheme = 0x0403 then .ok ⟨.p256, .ecdsaSha256⟩
  else if scheme = 0x0503 then .ok ⟨.p384, .ecdsaSha384⟩
  else if scheme = 0x0807 then .ok ⟨.ed25519, .ed25519⟩
  else if scheme = 0x0804 then .ok ⟨.rsa, .rsaPssSha256⟩
  else if scheme = 0x0805 then .ok ⟨.rsa, .rsaPssSha384⟩
  else if scheme = 0x0806 then .ok ⟨.rsa, .rsaPssSha512⟩
  else .error .misbehaved

/-- crates/tls-core/src/verify.rs:609-622 `verify_tls13`. -/
def WebPki.verifyTls13 (P : WebPki) (message cert : Bytes) (scheme : UInt16) (sig : Bytes) : Except PkiError Unit :=
  match convertAlgTls13 scheme with
  | .error e => .error e
  | .ok alg =>
    if !P.parses cert then .error .badDer
    else P.verifySignature cert alg message sig

/-! ## Certificates in the client -/

/-- crates/tls-core/src/verify.rs:358-361 `CertificateTransparencyPolicy`; the deadline is in nanoseconds since 1970. -/
structure CtPolicy where
  logs : List Bytes
  deadline : Int
  deriving DecidableEq, Repr

/-- The seconds since 1970 of a time in nanoseconds, `duration_since(UNIX_EPOCH)` and `as_secs`. -/
def unixSecs (now : Int) : Option Nat := if now < 0 then none else some (now.toNat / 1000000000)

/-- crates/tls-core/src/verify.rs:624-629 `unix_time_millis`: the seconds times 1000 in 64 bits. -/
def unixTimeMillis (now : Int) : Except PkiError Nat :=
  match unixSecs now with
  | none => .error .time
  | some secs => if secs * 1000 < 2 ^ 64 then .ok (secs * 1000) else .error .time

/-- The loop of crates/tls-core/src/verify.rs:387-409. -/
def WebPki.sctLoop (P : WebPki) (logs : List Bytes) (cert : Bytes) (millis : Nat) : Option SctError → List Bytes → Except PkiError Unit
  | none, [] => .ok ()
  | some e, [] => .error (.sct e)
  | _, s :: ss =>
    match P.sct logs cert s millis with
    | .ok () => .ok ()
    | .error e => if e.fatal then .error (.sct e) else P.sctLoop logs cert millis (some e) ss

/-- crates/tls-core/src/verify.rs:376-410 `verify` for a policy. -/
def WebPki.ctVerify (P : WebPki) (policy : CtPolicy) (cert : Bytes) (now : Int) (scts : List Bytes) : Except PkiError Unit :=
  if policy.logs = [] ∨ policy.deadline < now then .ok ()
  else match unixTimeMillis now with
    | .error e => .error e
    | .ok millis => P.sctLoop policy.logs cert millis none scts

/-- crates/tls-core/src/verify.rs:261-303 `verify_server_cert` with the roots and the policy of 308-324. -/
def WebPki.clientVerifyCert (P : WebPki) (anchors : List Bytes) (ct : Option CtPolicy) (endEntity : Bytes) (intermediates : List Bytes)
    (name : ServerName) (scts : List Bytes) (now : Int) : Except PkiError Unit :=
  if !P.parses endEntity then .error .badDer
  else match unixSecs now with
    | none => .error .time
    | some secs =>
      if !P.path anchors endEntity intermediates secs then .error .path
      else
        match ct.elim (.ok ()) fun policy => P.ctVerify policy endEntity now scts with
        | .error e => .error e
        | .ok () => if P.nameOk endEntity name then .ok () else .error .name

/-! ## The verifier -/

/-- The trust anchors of a root store: crates/core/src/webpki.rs:81-98 `ServerCertVerifier::new`, and for the client
crates/tlsn/src/prover/client/mpc.rs:427-441; the certificate that is not one, otherwise. -/
def WebPki.anchors (P : WebPki) : List Bytes → Except Bytes (List Bytes)
  | [] => .ok []
  | c :: cs =>
    match P.anchor c with
    | none => .error c
    | some a =>
      match P.anchors cs with
      | .error e => .error e
      | .ok as => .ok (a :: as)

/-- crates/core/src/webpki.rs:75-77 `ServerCertVerifier`, by what the checks of `HandshakeData::verify` use:
`verify_server_cert` (121-158), and `verify_signature` with the algorithm of the recorded name
(crates/core/src/connection.rs:336-370). -/
def WebPki.certVerifier (P : WebPki) (anchors : List Bytes) : CertVerifier where
  parses := P.parses
  path := P.path anchors
  nameOk := P.nameOk
  sigOk := fun cert alg message sig => match P.verifySignature cert (ringAlg alg) message sig with
    | .ok () => true
    | .error _ => false

/-- crates/core/src/webpki.rs:81-98 `ServerCertVerifier::new`. -/
def WebPki.newVerifier (P : WebPki) (roots : List Bytes) : Except Bytes CertVerifier :=
  match P.anchors roots with
  | .error e => .error e
  | .ok as => .ok (P.certVerifier as)

end Tlsn.Pki
