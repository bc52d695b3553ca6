import Verif.Pki.Model
import Verif.Client.Base

/-! # The client's configuration and its certificate

crates/core/src/config/tls.rs, crates/tlsn/src/prover/client/mpc.rs:424-463, crates/mpc-tls/src/client/config.rs and
crates/mpc-tls/src/client/sign.rs: how the configuration of a prover becomes that of the TLS client, how the private key is read, and
which certificate and scheme the client answers with when the server asks for a certificate.  `ring`'s reading of keys and its
signatures are parameters. -/

namespace Tlsn.ClientAuth

open Pki (WebPki KeyAlg SigId verificationSchemes)

/-! ## DER -/

/-- The loop of crates/tls-core/src/x509.rs:13-18: the first byte counts the bytes of the length, which are inserted after it. -/
def asn1LenLoop (count : Byte) (bytes : Bytes) (left : Nat) : Bytes :=
  if h : left = 0 then count :: bytes
  else asn1LenLoop (count + 1) (UInt8.ofNat (left % 256) :: bytes) (left / 256)
termination_by left
decreasing_by omega

/-- crates/tls-core/src/x509.rs:5-20 `wrap_in_asn1_len`. -/
def wrapInAsn1Len (bytes : Bytes) : Bytes :=
  if bytes.length ≤ 0x7f then UInt8.ofNat bytes.length :: bytes
  else asn1LenLoop 0x80 bytes bytes.length

/-- crates/tls-core/src/x509.rs:23-26 `wrap_in_sequence`. -/
def wrapInSequence (bytes : Bytes) : Bytes := 0x30 :: wrapInAsn1Len bytes

/-- crates/mpc-tls/src/client/sign.rs:274-277 `PKCS8_PREFIX_ECDSA_NISTP256`. -/
def prefixP256 : Bytes := [0x02, 0x01, 0x00, 0x30, 0x13, 0x06, 0x07, 0x2a, 0x86, 0x48, 0xce, 0x3d, 0x02, 0x01,
  0x06, 0x08, 0x2a, 0x86, 0x48, 0xce, 0x3d, 0x03, 0x01, 0x07]

/-- crates/mpc-tls/src/client/sign.rs:284-287 `PKCS8_PREFIX_ECDSA_NISTP384`. -/
def prefixP384 : Bytes := [0x02, 0x01, 0x00, 0x30, 0x10, 0x06, 0x07, 0x2a, 0x86, 0x48, 0xce, 0x3d, 0x02, 0x01,
  0x06, 0x05, 0x2b, 0x81, 0x04, 0x00, 0x22]

/-- crates/mpc-tls/src/client/sign.rs:242-266, the encoding that `convert_sec1_to_pkcs8` makes. -/
def sec1ToPkcs8 (pkcs8Prefix sec1 : Bytes) : Bytes := wrapInSequence (pkcs8Prefix ++ 0x04 :: wrapInAsn1Len sec1)

/-! ## Keys -/

/-- `ring`: reading the encodings of keys, and signing with the random numbers `rnd`.  Keys are left as bytes. -/
structure Ring where
  rsaDer : Bytes → Option Bytes
  rsaPkcs8 : Bytes → Option Bytes
  ecdsaP256 : Bytes → Option Bytes
  ecdsaP384 : Bytes → Option Bytes
  ed25519 : Bytes → Option Bytes
  sign : (pair : Bytes) → SigId → (message rnd : Bytes) → Option Bytes

/-- crates/mpc-tls/src/client/sign.rs:125-127 `RsaSigningKey`, 215-218 `EcdsaSigningKey` with the scheme of either curve, 337-340
`Ed25519SigningKey`. -/
inductive SigningKey where
  | rsa (pair : Bytes)
  | p256 (pair : Bytes)
  | p384 (pair : Bytes)
  | ed25519 (pair : Bytes)
  deriving DecidableEq, Repr

/-- crates/mpc-tls/src/client/sign.rs:141-146 `new` for RSA. -/
def newRsa (R : Ring) (der : Bytes) : Option SigningKey := (R.rsaDer der <|> R.rsaPkcs8 der).map .rsa

/-- crates/mpc-tls/src/client/sign.rs:224-237 `new` for ECDSA, on P-256. -/
def newP256 (R : Ring) (der : Bytes) : Option SigningKey := (R.ecdsaP256 der <|> R.ecdsaP256 (sec1ToPkcs8 prefixP256 der)).map .p256

/-- crates/mpc-tls/src/client/sign.rs:224-237 `new` for ECDSA, on P-384. -/
def newP384 (R : Ring) (der : Bytes) : Option SigningKey := (R.ecdsaP384 der <|> R.ecdsaP384 (sec1ToPkcs8 prefixP384 der)).map .p384

/-- crates/mpc-tls/src/client/sign.rs:92-110 `any_ecdsa_type`. -/
def anyEcdsa (R : Ring) (der : Bytes) : Option SigningKey :=
  match newP256 R der with
  | some k => some k
  | none => newP384 R der

/-- crates/mpc-tls/src/client/sign.rs:113-121 `any_eddsa_type`. -/
def anyEddsa (R : Ring) (der : Bytes) : Option SigningKey := (R.ed25519 der).map .ed25519

/-- crates/mpc-tls/src/client/sign.rs:78-86 `any_supported_type`. -/
def anySupported (R : Ring) (der : Bytes) : Option SigningKey :=
  match newRsa R der with
  | some k => some k
  | none =>
    match anyEcdsa R der with
    | some k => some k
    | none => anyEddsa R der

/-- crates/mpc-tls/src/client/sign.rs:129-136 `ALL_RSA_SCHEMES`. -/
def allRsaSchemes : List UInt16 := [0x0806, 0x0805, 0x0804, 0x0601, 0x0501, 0x0401]

/-- crates/mpc-tls/src/client/sign.rs:150-155, 290-299 and 356-365 `choose_scheme`. -/
def SigningKey.chooseScheme (k : SigningKey) (offered : List UInt16) : Option UInt16 :=
  match k with
  | .rsa _ => allRsaSchemes.find? fun s => offered.contains s
  | .p256 _ => if offered.contains 0x0403 then some 0x0403 else none
  | .p384 _ => if offered.contains 0x0503 then some 0x0503 else none
  | .ed25519 _ => if offered.contains 0x0807 then some 0x0807 else none

/-- crates/mpc-tls/src/client/sign.rs:169-185 `new_boxed`: the encoding of a signer for RSA; `unreachable!` for other schemes. -/
def rsaEncoding (scheme : UInt16) : Outcome Unit SigId :=
  if scheme = 0x0401 then .ok .rsaPkcs1Sha256
  else if scheme = 0x0501 then .ok .rsaPkcs1Sha384
  else if scheme = 0x0601 then .ok .rsaPkcs1Sha512
  else if scheme = 0x0804 then .ok .rsaPssSha256
  else if scheme = 0x0805 then .ok .rsaPssSha384
  else if scheme = 0x0806 then .ok .rsaPssSha512
  else .panic

/-- crates/mpc-tls/src/client/sign.rs:189-197, 313-319 and 379-381 `sign`, for the signer of the scheme that was chosen. -/
def SigningKey.sign (R : Ring) (k : SigningKey) (scheme : UInt16) (message rnd : Bytes) : Outcome Unit Bytes :=
  let made := fun pair kind => match R.sign pair kind message rnd with
    | some sig => Outcome.ok sig
    | none => .err ()
  match k with
  | .rsa pair => do
    let kind ← rsaEncoding scheme
    made pair kind
  | .p256 pair => made pair .ecdsaSha256
  | .p384 pair => made pair .ecdsaSha384
  | .ed25519 pair => made pair .ed25519

/-! ## Configurations -/

/-- crates/core/src/config/tls.rs:12-19 `TlsClientConfig`. -/
structure TlsClientConfig where
  serverName : Bytes
  rootStore : List Bytes
  clientAuth : Option (List Bytes × Bytes)
  deriving DecidableEq, Repr

/-- crates/core/src/config/tls.rs:46-50 `TlsConfigBuilder`. -/
structure TlsConfigBuilder where
  serverName : Option Bytes := none
  rootStore : Option (List Bytes) := none
  clientAuth : Option (List Bytes × Bytes) := none
  deriving DecidableEq, Repr

/-- The field that is missing. -/
inductive TlsConfigError where
  | serverName
  | rootStore
  deriving DecidableEq, Repr

/-- crates/core/src/config/tls.rs:84-98 `build`. -/
def TlsConfigBuilder.build (b : TlsConfigBuilder) : Except TlsConfigError TlsClientConfig :=
  match b.serverName with
  | none => .error .serverName
  | some n =>
    match b.rootStore with
    | none => .error .rootStore
    | some r => .ok ⟨n, r, b.clientAuth⟩

/-- crates/mpc-tls/src/client/config.rs:201-215 `FailResolveClientCert` and 217-242 `AlwaysResolvesClientCert`. -/
inductive Resolver where
  | fail
  | always (chain : List Bytes) (key : SigningKey)
  deriving DecidableEq, Repr

/-- `has_certs` of the two. -/
def Resolver.hasCerts : Resolver → Bool
  | .fail => false
  | .always _ _ => true

/-- `resolve` of the two, which look at neither argument. -/
def Resolver.certifiedKey : Resolver → (caNames : List Bytes) → (schemes : List UInt16) → Option (List Bytes × SigningKey)
  | .fail, _, _ => none
  | .always chain key, _, _ => some (chain, key)

/-- crates/mpc-tls/src/client/hs.rs:636-662 `resolve`. -/
def Resolver.resolve (r : Resolver) (caNames : List Bytes) (schemes : List UInt16) : Option (List Bytes × UInt16) :=
  match r.certifiedKey caNames schemes with
  | none => none
  | some (chain, key) =>
    match key.chooseScheme schemes with
    | none => none
    | some scheme => some (chain, scheme)

/-- Why a client cannot be configured. -/
inductive ConfigError where
  | root (cert : Bytes)
  | key
  deriving DecidableEq, Repr

/-- What the client's configuration takes from elsewhere: the hash of the cipher suites, and names as `rustls_pki_types` reads them. -/
structure Env where
  pki : WebPki
  ring : Ring
  hash : Bytes → Bytes
  dnsOk : Bytes → Bool
  sni : Bytes → Option Bytes

/-- crates/mpc-tls/src/client/config.rs:129-139 `new_inner`, with the verifier of crates/tls-core/src/verify.rs:308-324 without a policy,
and the server name that crates/mpc-tls/src/client/config.rs:184-196 adds.  The errors of the verifier are not told apart. -/
def newInner (E : Env) (anchors : List Bytes) (name : Bytes) (r : Resolver) : Client.ClientCfg where
  serverName := name
  sni := E.sni name
  enableSni := true
  alpn := []
  maxFragmentSize := none
  requestScts := true
  verifySchemes := verificationSchemes
  verifyCert := fun leaf intermediates name scts _ now =>
    match E.pki.clientVerifyCert anchors none leaf intermediates name scts now with
    | .ok () => .ok ()
    | .error _ => .error 0
  verifySig := fun message cert dss =>
    match E.pki.verifySignedStruct message cert dss.scheme dss.sig with
    | .ok () => .ok ()
    | _ => .error 0
  hasClientCerts := r.hasCerts
  resolve := r.resolve
  hash := E.hash
  dnsOk := E.dnsOk

/-- crates/mpc-tls/src/client/config.rs:99-101 `new`, 111-118 `new_with_client_auth` and 220-227 `new`. -/
def resolverOf (R : Ring) : Option (List Bytes × Bytes) → Except ConfigError Resolver
  | none => .ok .fail
  | some (chain, der) =>
    match anySupported R der with
    | none => .error .key
    | some key => .ok (.always chain key)

/-- crates/tlsn/src/prover/client/mpc.rs:424-463 `create_client_config`, with 58-75 `new`, which adds the server's name. -/
def createClientConfig (E : Env) (c : TlsClientConfig) : Except ConfigError Client.ClientCfg :=
  match E.pki.anchors c.rootStore with
  | .error cert => .error (.root cert)
  | .ok anchors =>
    match resolverOf E.ring c.clientAuth with
    | .error e => .error e
    | .ok r => .ok (newInner E anchors c.serverName r)

end Tlsn.ClientAuth
