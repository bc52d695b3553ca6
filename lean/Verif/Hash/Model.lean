import Verif.Base.Basic

/-!
# Model of the fixed-size hash value (crates/core/src/hash.rs:106-228)

The other areas of the model use the byte string of a hash (`as_bytes`) as its value; the theorems of
`Verif.Hash.Props` justify that.
-/

namespace Tlsn

/-- crates/core/src/hash.rs:9 `MAX_LEN`. -/
def hashMaxLen : Nat := 64

/-- crates/core/src/hash.rs:107-113 `Hash`.  Equality is derived: it compares the whole array and the
length. -/
structure HashRepr where
  value : Vector Byte hashMaxLen
  len : Nat
  deriving DecidableEq

/-- crates/core/src/hash.rs:186-187 and 213-214: a zero array with the bytes copied to its front. -/
def padded (b : Bytes) : Vector Byte hashMaxLen :=
  Vector.ofFn fun i => b[i.1]?.getD 0

/-- crates/core/src/hash.rs:180-193 `Hash::new`; `none` is the failed assertion. -/
def HashRepr.new (b : Bytes) : Option HashRepr :=
  if b.length ≤ hashMaxLen then some ⟨padded b, b.length⟩ else none

/-- crates/core/src/hash.rs:205-221 `TryFrom<Vec<u8>>`. -/
def HashRepr.tryFrom (b : Bytes) : Except Unit HashRepr :=
  if b.length > hashMaxLen then .error () else .ok ⟨padded b, b.length⟩

/-- crates/core/src/hash.rs:115-122 `Default`. -/
def HashRepr.default : HashRepr := ⟨Vector.replicate hashMaxLen 0, 0⟩

/-- crates/core/src/hash.rs:196-198 `as_bytes` (also 223-227 `Into<Vec<u8>>`, and what `serialize`
writes, 124-131). -/
def HashRepr.asBytes (h : HashRepr) : Bytes := h.value.toList.take h.len

/-- crates/core/src/hash.rs:148-167 `visit_seq`: the loop over the elements of the sequence. -/
def visitSeq : Vector Byte hashMaxLen → Nat → Bytes → Except Unit HashRepr
  | value, len, [] => .ok ⟨value, len⟩
  | value, len, b :: rest =>
    if len ≥ hashMaxLen then .error () else visitSeq (value.setIfInBounds len b) (len + 1) rest

/-- crates/core/src/hash.rs:133-172 `Deserialize`, from the sequence of bytes that was written. -/
def HashRepr.deserialize (b : Bytes) : Except Unit HashRepr :=
  visitSeq (Vector.replicate hashMaxLen 0) 0 b

/-- The ways to obtain a hash value through the API: `new` (used by the hash implementations),
`TryFrom`, `Deserialize` and `Default` (the fields are private). -/
inductive HashRepr.Reachable : HashRepr → Prop
  | new {b h} : HashRepr.new b = some h → HashRepr.Reachable h
  | tryFrom {b h} : HashRepr.tryFrom b = .ok h → HashRepr.Reachable h
  | deserialize {b h} : HashRepr.deserialize b = .ok h → HashRepr.Reachable h
  | default : HashRepr.Reachable HashRepr.default

end Tlsn
