import Verif.ClientAuth.Model
import Verif.Client.Spec
import Verif.Pki.Spec

/-! # What reading keys and answering a certificate request are to mean -/

namespace Tlsn.ClientAuth

open Pki (KeyAlg SigId SchemeIs KeyMakes)

/-- A length in DER, X.690 sections 8.1.3 and 10.1: the definite form, in the fewest bytes.  The length, and what follows. -/
def derLength : Bytes → Option (Nat × Bytes)
  | [] => none
  | b :: rest =>
    if b.toNat < 128 then some (b.toNat, rest)
    else
      let n := b.toNat - 128
      if n = 0 ∨ n = 127 ∨ rest.length < n ∨ rest.head? = some 0 ∨ beNat (rest.take n) < 128 then none
      else some (beNat (rest.take n), rest.drop n)

/-- The first value of an encoding in DER: its tag and contents, and what follows. -/
def derRead : Bytes → Option (Byte × Bytes × Bytes)
  | [] => none
  | tag :: rest =>
    match derLength rest with
    | none => none
    | some (len, rest) => if rest.length < len then none else some (tag, rest.take len, rest.drop len)

/-- RFC 5958, section 2: the encoding of a private key on an elliptic curve that is `key` in the encoding of RFC 5915 (SEC1). -/
def IsPkcs8 (encoding curve key : Bytes) : Prop :=
  ∃ body afterVersion algorithm parameters keyPart,
    derRead encoding = some (0x30, body, []) ∧
    derRead body = some (0x02, [0], afterVersion) ∧
    derRead afterVersion = some (0x30, algorithm, keyPart) ∧
    derRead algorithm = some (0x06, [0x2a, 0x86, 0x48, 0xce, 0x3d, 0x02, 0x01], parameters) ∧
    derRead parameters = some (0x06, curve, []) ∧
    derRead keyPart = some (0x04, key, [])

/-- The object identifier of P-256, 1.2.840.10045.3.1.7. -/
def oidP256 : Bytes := [0x2a, 0x86, 0x48, 0xce, 0x3d, 0x03, 0x01, 0x07]

/-- The object identifier of P-384, 1.3.132.0.34. -/
def oidP384 : Bytes := [0x2b, 0x81, 0x04, 0x00, 0x22]

/-- The kind of a key. -/
def SigningKey.alg : SigningKey → KeyAlg
  | .rsa _ => .rsa
  | .p256 _ => .p256
  | .p384 _ => .p384
  | .ed25519 _ => .ed25519

/-- The key pair. -/
def SigningKey.pair : SigningKey → Bytes
  | .rsa p => p
  | .p256 p => p
  | .p384 p => p
  | .ed25519 p => p

/-- `ring` reads the encoding as the key: RSA from PKCS#1 or PKCS#8, ECDSA from PKCS#8 or SEC1, Ed25519 from PKCS#8. -/
inductive Reads (R : Ring) (der : Bytes) : SigningKey → Prop
  | pkcs1 {p : Bytes} : R.rsaDer der = some p → Reads R der (.rsa p)
  | rsaPkcs8 {p : Bytes} : R.rsaPkcs8 der = some p → Reads R der (.rsa p)
  | p256Pkcs8 {p : Bytes} : R.ecdsaP256 der = some p → Reads R der (.p256 p)
  | p256Sec1 {p e : Bytes} : IsPkcs8 e oidP256 der → R.ecdsaP256 e = some p → Reads R der (.p256 p)
  | p384Pkcs8 {p : Bytes} : R.ecdsaP384 der = some p → Reads R der (.p384 p)
  | p384Sec1 {p e : Bytes} : IsPkcs8 e oidP384 der → R.ecdsaP384 e = some p → Reads R der (.p384 p)
  | ed25519 {p : Bytes} : R.ed25519 der = some p → Reads R der (.ed25519 p)

/-- The key can make signatures of a scheme. -/
def Fits (k : SigningKey) (scheme : UInt16) : Prop :=
  ∃ kind, SchemeIs scheme kind ∧ KeyMakes k.alg kind

/-! ## Identities -/

open Client (Ev transcriptOf)
open Pki (WebPki)

/-- What the server signs: RFC 8422, section 5.4, `ServerECDHParams`. -/
def ecdhParams (kx : EcdheServerKeyExchange) : Bytes :=
  [3] ++ beBytes 2 kx.namedGroup.toNat ++ [UInt8.ofNat kx.publicKey.length] ++ kx.publicKey

/-- In what has happened the server has shown who it is: its certificates lead to the roots of the configuration and are for the name of
the configuration, at the time that the clock gave in nanoseconds, and the key of the first made the signature over the randoms and the ephemeral key. -/
def ServerShown (P : WebPki) (c : TlsClientConfig) (pre : List Ev) : Prop :=
  ∃ anchors leaf intermediates t1 now cr t2 sh t3 kxb kx,
    c.rootStore.map P.anchor = anchors.map some ∧
    Ev.handle (.handshake ⟨t1, .certificate (leaf :: intermediates)⟩) ∈ pre ∧ Ev.now now ∈ pre ∧
    Pki.CertOk P anchors leaf intermediates c.serverName (now / 1000000000) ∧
    Ev.random (.ok cr) ∈ pre ∧ Ev.handle (.handshake ⟨t2, .serverHello sh⟩) ∈ pre ∧
    Ev.handle (.handshake ⟨t3, .serverKeyExchange kxb⟩) ∈ pre ∧ unwrapEcdhe kxb = some kx ∧
    Pki.Signed P leaf (cr ++ sh.random ++ ecdhParams kx) kx.dss.scheme kx.dss.sig

/-- The server has asked for a certificate, with a list of signature schemes. -/
def AskedWith (schemes : List UInt16) (pre : List Ev) : Prop :=
  ∃ typ r, Ev.handle (.handshake ⟨typ, .certificateRequest r⟩) ∈ pre ∧ r.sigSchemes = schemes

/-- The chain and the key of the configuration. -/
def HasIdentity (R : Ring) (c : TlsClientConfig) (chain : List Bytes) (key : SigningKey) : Prop :=
  ∃ der, c.clientAuth = some (chain, der) ∧ anySupported R der = some key

/-- ECDSA is used with the hash of the length of the curve. -/
def OwnHash (k : SigningKey) (scheme : UInt16) : Prop :=
  (k.alg = .p256 → scheme = 0x0403) ∧ (k.alg = .p384 → scheme = 0x0503)

end Tlsn.ClientAuth
