import Verif.Base.Bytes

/-! # Keystream material -/

namespace Tlsn

/-- crates/components/cipher/src/lib.rs:99-102 `Keystream`: the counter blocks in order, each identified
by the number under which it was allocated. -/
structure Keystream where
  blocks : List Nat
  deriving DecidableEq, Repr

/-- `usize::div_ceil(16)`; the block size of AES is 16 bytes (crates/components/cipher/src/lib.rs:238-240). -/
def divCeil16 (n : Nat) : Nat := (n + 15) / 16

/-- crates/components/cipher/src/lib.rs:133-143 `consume`.  Returns the remaining and the consumed
material; `none` is the error "insufficient keystream", which leaves the stream unchanged. -/
def Keystream.consume (k : Keystream) (len : Nat) : Option (Keystream × Keystream) :=
  let n := divCeil16 len
  if n > k.blocks.length then none
  else some (⟨k.blocks.take (k.blocks.length - n)⟩, ⟨k.blocks.drop (k.blocks.length - n)⟩)

/-- A sequence of `consume` calls, failed calls changing nothing: the remaining stream and the material
handed out by each successful call. -/
def Keystream.consumeAll (k : Keystream) : List Nat → Keystream × List Keystream
  | [] => (k, [])
  | len :: lens => match k.consume len with
    | none => k.consumeAll lens
    | some (rest, got) => let r := rest.consumeAll lens; (r.1, got :: r.2)

/-- crates/components/cipher/src/lib.rs:216-235 `assign`: the counter blocks get the explicit nonce and
consecutive counters. -/
def Keystream.assign (k : Keystream) (nonce : Bytes) (start : Nat) : List (Nat × Bytes × Nat) :=
  k.blocks.mapIdx fun i id => (id, nonce, start + i)

end Tlsn
