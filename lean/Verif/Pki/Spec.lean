import Verif.Pki.Model

/-! # What the checks of certificates and signatures are to mean -/

namespace Tlsn.Pki

/-- The kind of signature that a signature scheme of TLS 1.2 stands for: RFC 8446, section 4.2.3, with the hash of a scheme with
ECDSA and any curve. -/
inductive SchemeIs : UInt16 → SigId → Prop
  | ecdsa256 : SchemeIs 0x0403 .ecdsaSha256
  | ecdsa384 : SchemeIs 0x0503 .ecdsaSha384
  | ed25519 : SchemeIs 0x0807 .ed25519
  | pkcs256 : SchemeIs 0x0401 .rsaPkcs1Sha256
  | pkcs384 : SchemeIs 0x0501 .rsaPkcs1Sha384
  | pkcs512 : SchemeIs 0x0601 .rsaPkcs1Sha512
  | pss256 : SchemeIs 0x0804 .rsaPssSha256
  | pss384 : SchemeIs 0x0805 .rsaPssSha384
  | pss512 : SchemeIs 0x0806 .rsaPssSha512

/-- The keys with which a kind of signature is made. -/
inductive KeyMakes : KeyAlg → SigId → Prop
  | p256_256 : KeyMakes .p256 .ecdsaSha256
  | p256_384 : KeyMakes .p256 .ecdsaSha384
  | p384_256 : KeyMakes .p384 .ecdsaSha256
  | p384_384 : KeyMakes .p384 .ecdsaSha384
  | ed25519 : KeyMakes .ed25519 .ed25519
  | pkcs256 : KeyMakes .rsa .rsaPkcs1Sha256
  | pkcs384 : KeyMakes .rsa .rsaPkcs1Sha384
  | pkcs512 : KeyMakes .rsa .rsaPkcs1Sha512
  | pss256 : KeyMakes .rsa .rsaPssSha256
  | pss384 : KeyMakes .rsa .rsaPssSha384
  | pss512 : KeyMakes .rsa .rsaPssSha512

/-- The key of the certificate made the signature over the message, by the scheme. -/
def Signed (P : WebPki) (cert message : Bytes) (scheme : UInt16) (sig : Bytes) : Prop :=
  P.parses cert = true ∧ ∃ key kind, P.keyAlg cert = some key ∧ SchemeIs scheme kind ∧ KeyMakes key kind ∧
    P.raw cert kind message sig = true

/-- The timestamps satisfy a policy of certificate transparency at a time: the policy names no logs or has expired, or there are no
timestamps, or one of them is valid and no error before it is fatal. -/
def SctsOk (P : WebPki) (policy : CtPolicy) (cert : Bytes) (now : Int) (scts : List Bytes) : Prop :=
  policy.logs = [] ∨ policy.deadline < now ∨
  ∃ millis : Nat, (millis : Int) = now / 1000000000 * 1000 ∧ millis < 2 ^ 64 ∧
    (scts = [] ∨ ∃ pre s post, scts = pre ++ s :: post ∧ P.sct policy.logs cert s millis = .ok () ∧
      ∀ x ∈ pre, ∃ e, P.sct policy.logs cert x millis = .error e ∧ e.fatal = false)

/-- The certificate is one for the name with a path to one of the anchors at a time in seconds. -/
def CertOk (P : WebPki) (anchors : List Bytes) (endEntity : Bytes) (intermediates : List Bytes) (name : ServerName) (secs : Nat) : Prop :=
  P.parses endEntity = true ∧ P.path anchors endEntity intermediates secs = true ∧ P.nameOk endEntity name = true

end Tlsn.Pki
