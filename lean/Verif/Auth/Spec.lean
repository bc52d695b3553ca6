import Verif.Auth.Session
import Verif.Proof.Spec

/-! # Specification vocabulary for proving and verifying

What the session's records say, independently of how the proof is made. -/

namespace Tlsn

/-- AES-CTR decryption of one TLS 1.2 record: byte `j` is masked with byte `j % 16` of the encryption of
the salt, the record's nonce and the counter `2 + j / 16`. -/
def decryptRecord (aes : AesFn) (key iv : Bytes) (r : Record) : Bytes :=
  r.ciphertext.mapIdx fun j b =>
    b ^^^ (aes key (iv ++ (r.nonce ++ beBytes 4 (2 + j / 16))))[j % 16]'(Nat.mod_lt _ (by decide))

/-- The application data of a direction: the decryptions of its application data records, in order. -/
def appData (aes : AesFn) (key iv : Bytes) (rs : List Record) : Bytes :=
  (rs.filter fun r => decide (r.typ = .applicationData)).flatMap (decryptRecord aes key iv)

/-- The session keys as bytes. -/
structure KeyBytes where
  clientKey : Bytes
  clientIv : Bytes
  serverKey : Bytes
  serverIv : Bytes

/-- The application data of a session. -/
def sessionData (aes : AesFn) (k : KeyBytes) (tls : SessionView) : Transcript :=
  ⟨appData aes k.clientKey k.clientIv tls.sent, appData aes k.serverKey k.serverIv tls.recv⟩

/-- The VM holds the session keys. -/
structure HoldsKeys (vm : ZkVm) (r : KeyRefs) (k : KeyBytes) : Prop where
  ck : r.clientKey.addr + r.clientKey.len ≤ vm.mem.length ∧ vm.read r.clientKey = k.clientKey
  ci : r.clientIv.addr + r.clientIv.len ≤ vm.mem.length ∧ vm.read r.clientIv = k.clientIv
  sk : r.serverKey.addr + r.serverKey.len ≤ vm.mem.length ∧ vm.read r.serverKey = k.serverKey
  si : r.serverIv.addr + r.serverIv.len ≤ vm.mem.length ∧ vm.read r.serverIv = k.serverIv

/-- Explicit nonces of application data are eight bytes: so parsed, see crates/mpc-tls/src/utils.rs:25-37
and crates/core/src/transcript/tls/builder.rs:375-394. -/
def WellFormed (tls : SessionView) : Prop :=
  ∀ r, r ∈ tls.sent ∨ r ∈ tls.recv → r.typ = .applicationData → r.nonce.length = 8

/-- `c` commits to the bytes of `data` at the given positions, with some 16-byte blinder. -/
def Commits (hc : HashCircuits) (data : Transcript) (req : Direction × RangeSet × HashAlgId)
    (c : PlaintextHash) : Prop :=
  ∃ f msg blinder, hc req.2.2 = some f ∧ BytesAt (data.data req.1) req.2.1 msg ∧ blinder.length = 16 ∧
    c = ⟨req.1, req.2.1, ⟨req.2.2, (f (msg ++ blinder)).toList⟩⟩

/-- `P` holds of the elements of two lists of the same length, pairwise. -/
def Pairwise2 {α β : Type} (P : α → β → Prop) (l : List α) (m : List β) : Prop :=
  l.length = m.length ∧ ∀ (n : Nat) (a : α) (b : β), l[n]? = some a → m[n]? = some b → P a b

/-- The other party's mark for the same cells. -/
def Vis.dual : Vis → Vis
  | .pub => .pub
  | .priv => .blind
  | .blind => .priv

/-- Two VMs in step: the same amount of memory, the same operations, matching marks.  `F` is what the
second party gets from the first. -/
structure InStep (F : Nat → Byte) (p v : ZkVm) : Prop where
  fill : v.fill = F
  mem : p.mem.length = v.mem.length
  ops : p.ops = v.ops
  marks : v.marks = p.marks.map fun m => (m.1, m.2.dual)

/-- Both parties have the same public inputs and decode the same values. -/
structure Agree (p v : ZkVm) : Prop where
  pubs : ∀ m ∈ p.marks, m.2 = .pub → m.1.addr + m.1.len ≤ p.mem.length ∧ p.read m.1 = v.read m.1
  decs : ∀ x, VmOp.decode x ∈ p.ops → x.addr + x.len ≤ p.mem.length ∧ p.read x = v.read x

/-- What the other party can observe of two runs is the same: memory layout, operations, marks, public inputs
and decoded values. -/
structure SameView (a b : ZkVm) : Prop where
  mem : a.mem.length = b.mem.length
  ops : a.ops = b.ops
  marks : a.marks = b.marks
  agree : Agree a b

end Tlsn
