import Verif.Auth.Model
import Verif.Attestation.Model
import Verif.Ghash.Spec

/-!
# Model of crates/tlsn/src/tag.rs and crates/tlsn/src/ghash.rs

`ghash::GHash` (a dependency) is GHASH as NIST defines it, `ghashBytes`; the VM is the ideal one of
`Verif.Auth.Vm`.
-/

namespace Tlsn

/-- crates/tlsn/src/tag.rs:157-170 `ErrorRepr`; decodings are available, so `NotDecoded` does not occur. -/
inductive TagError where
  | vm
  | invalidTag
  | unknownTag
  | nonceLength
  deriving DecidableEq, Repr

/-- crates/tlsn/src/tag.rs:104-107. -/
def TlsVersion.protocol : TlsVersion → ProtocolVersion
  | .v12 => .tls12
  | .v13 => .tls13

/-- crates/tlsn/src/tag.rs:39-62: the block with counter 1 of one record.  The nonce and the counter are allocated and marked by
crates/components/cipher/src/aes/mod.rs:95-139 `alloc_ctr_block`; the model assigns them before the circuit is
called, so that it can be evaluated.  The key schedule is part of the circuit. -/
def allocJ0 (aes : AesFn) (vm : ZkVm) (key iv : VmVec) (nonce : Bytes) : Outcome TagError (ZkVm × VmVec) :=
  if nonce.length ≠ 8 then .err .nonceLength
  else match ((vm.alloc 8).1.mark (vm.alloc 8).2 .pub).assign (vm.alloc 8).2 nonce with
    | none => .err .vm
    | some vm₁ =>
      match ((vm₁.alloc 4).1.mark (vm₁.alloc 4).2 .pub).assign (vm₁.alloc 4).2 (beBytes 4 1) with
      | none => .err .vm
      | some vm₂ => .ok (vm₂.call (.aes key iv (vm.alloc 8).2 (vm₁.alloc 4).2)
          (aes (vm₂.read key) (vm₂.read iv ++ (vm₂.read (vm.alloc 8).2 ++ vm₂.read (vm₁.alloc 4).2))).toList)

/-- crates/tlsn/src/tag.rs:37-64: the decoded blocks of all records. -/
def allocJ0s (aes : AesFn) (key iv : VmVec) : List Record → ZkVm → Outcome TagError (ZkVm × List Bytes)
  | [], vm => .ok (vm, [])
  | r :: rs, vm => do
    let (vm, block) ← allocJ0 aes vm key iv r.nonce
    let d := vm.decode block
    let (vm, t) ← allocJ0s aes key iv rs d.1
    pure (vm, d.2 :: t)

/-- crates/tlsn/src/tag.rs:77-86 `TagProof`, with the decoded values. -/
structure TagProof where
  version : TlsVersion
  j0s : List Bytes
  records : List Record
  macKey : Bytes

/-- crates/tlsn/src/tag.rs:26-74 `verify_tags`. -/
def verifyTags (aes : AesFn) (vm : ZkVm) (key iv mac : VmVec) (version : TlsVersion) (records : List Record) :
    Outcome TagError (ZkVm × TagProof) := do
  let (vm, j0s) ← allocJ0s aes key iv records vm
  let d := vm.decode mac
  pure (d.1, ⟨version, j0s, records, d.2⟩)

/-- crates/tlsn/src/ghash.rs:11-16 `ghash`; its `build_ghash_data` (19-41) is the same as the one of mpc-tls. -/
def ghashTag (aad ciphertext key : Bytes) : Bytes := ghashBytes key (buildGhashData aad ciphertext)

/-- The loop of crates/tlsn/src/tag.rs:109-139. -/
def checkTags (version : TlsVersion) (mac : Bytes) : List (Bytes × Record) → Outcome TagError Unit
  | [] => .ok ()
  | (j0, r) :: rest =>
    let aad := makeTls12Aad r.seq r.typ version.protocol r.ciphertext.length
    match r.tag with
    | none => .err .unknownTag
    | some tag =>
      if tag ≠ xorBytes (ghashTag aad r.ciphertext mac) j0 then .err .invalidTag
      else checkTags version mac rest

/-- crates/tlsn/src/tag.rs:90-139 `TagProof::verify`. -/
def TagProof.verify (p : TagProof) : Outcome TagError Unit := checkTags p.version p.macKey (p.j0s.zip p.records)

end Tlsn
