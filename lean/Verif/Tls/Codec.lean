import Verif.Tls.Enums

/-!
# Model of crates/tls-core/src/msgs/{codec,base,alert,ccs,macros}.rs

A `Codec` implementation is a pair of functions.  `encode` returns the bytes that the Rust method appends to its
argument; `read` is a state transformer on the `Reader`.  When a read fails the reader may have moved, but no caller
uses it again.
-/

namespace Tlsn

/-- crates/tls-core/src/msgs/codec.rs:4-7 `Reader`. -/
structure Reader where
  buf : Bytes
  offs : Nat
  deriving DecidableEq, Repr

/-- crates/tls-core/src/msgs/codec.rs:10-15 `init`. -/
def Reader.init (bytes : Bytes) : Reader := ⟨bytes, 0⟩

/-- crates/tls-core/src/msgs/codec.rs:37-39 `left` (`offs` never exceeds the length of the buffer). -/
def Reader.left (r : Reader) : Nat := r.buf.length - r.offs

/-- crates/tls-core/src/msgs/codec.rs:33-35 `any_left`. -/
def Reader.anyLeft (r : Reader) : Bool := decide (r.offs < r.buf.length)

/-- crates/tls-core/src/msgs/codec.rs:41-43 `used`. -/
def Reader.used (r : Reader) : Nat := r.offs

/-- The functions that read from a `Reader` and return an `Option`. -/
abbrev Rd := StateT Reader Option

/-- crates/tls-core/src/msgs/codec.rs:17-21 `rest`. -/
def Rd.rest : Rd Bytes := fun r => some (r.buf.drop r.offs, { r with offs := r.buf.length })

/-- crates/tls-core/src/msgs/codec.rs:23-31 `take`. -/
def Rd.take (len : Nat) : Rd Bytes := fun r =>
  if r.left < len then none else some ((r.buf.drop r.offs).take len, { r with offs := r.offs + len })

/-- crates/tls-core/src/msgs/codec.rs:45-47 `sub`. -/
def Rd.sub (len : Nat) : Rd Reader := do return Reader.init (← Rd.take len)

/-- `x.ok_or(..)?` in functions that return an `Option`. -/
def Rd.lift {α : Type} (x : Option α) : Rd α := fun r => x.map fun a => (a, r)

/-- crates/tls-core/src/msgs/codec.rs:51-70 `Codec`. -/
structure Codec (α : Type) where
  encode : α → Bytes
  read : Rd α

/-- crates/tls-core/src/msgs/codec.rs:65-69 `read_bytes`. -/
def Codec.readBytes {α : Type} (c : Codec α) (bytes : Bytes) : Option α := (c.read (Reader.init bytes)).map Prod.fst

/-- crates/tls-core/src/msgs/codec.rs:74-77 `decode_u8`. -/
def decodeU8 (bytes : Bytes) : Option UInt8 :=
  match bytes with
  | [v] => some v
  | _ => none

/-- crates/tls-core/src/msgs/codec.rs:79-86 `Codec for u8`. -/
def codecU8 : Codec UInt8 where
  encode v := [v]
  read := do Rd.lift (decodeU8 (← Rd.take 1))

/-- crates/tls-core/src/msgs/codec.rs:93-95 `decode_u16`. -/
def decodeU16 (bytes : Bytes) : Option UInt16 :=
  if bytes.length = 2 then some (UInt16.ofNat (beNat bytes)) else none

/-- crates/tls-core/src/msgs/codec.rs:89-108 `Codec for u16`, `put_u16`. -/
def codecU16 : Codec UInt16 where
  encode v := beBytes 2 v.toNat
  read := do Rd.lift (decodeU16 (← Rd.take 2))

/-- crates/tls-core/src/msgs/codec.rs:113 `u24`: an `u32` inside. -/
structure U24 where
  val : UInt32
  deriving DecidableEq, Repr

/-- crates/tls-core/src/msgs/codec.rs:114-119 `u24::decode`. -/
def U24.decode (bytes : Bytes) : Option U24 :=
  match bytes with
  | [a, b, c] => some ⟨UInt32.ofNat (beNat [0, a, b, c])⟩
  | _ => none

/-- crates/tls-core/src/msgs/codec.rs:129-138 `Codec for u24`: the most significant byte of the `u32` is dropped. -/
def codecU24 : Codec U24 where
  encode v := (beBytes 4 v.val.toNat).drop 1
  read := do Rd.lift (U24.decode (← Rd.take 3))

/-- crates/tls-core/src/msgs/codec.rs:140-142 `decode_u32`. -/
def decodeU32 (bytes : Bytes) : Option UInt32 :=
  if bytes.length = 4 then some (UInt32.ofNat (beNat bytes)) else none

/-- crates/tls-core/src/msgs/codec.rs:144-152 `Codec for u32`. -/
def codecU32 : Codec UInt32 where
  encode v := beBytes 4 v.toNat
  read := do Rd.lift (decodeU32 (← Rd.take 4))

/-- crates/tls-core/src/msgs/codec.rs:159-161 `decode_u64`. -/
def decodeU64 (bytes : Bytes) : Option UInt64 :=
  if bytes.length = 8 then some (UInt64.ofNat (beNat bytes)) else none

/-- crates/tls-core/src/msgs/codec.rs:155-174 `Codec for u64`, `put_u64`. -/
def codecU64 : Codec UInt64 where
  encode v := beBytes 8 v.toNat
  read := do Rd.lift (decodeU64 (← Rd.take 8))

/-- The encodings of the items, one after the other (crates/tls-core/src/msgs/codec.rs:179-181). -/
def encodeAll {α : Type} (c : Codec α) (items : List α) : Bytes := (items.map c.encode).flatten

/-- crates/tls-core/src/msgs/codec.rs:175-186 `encode_vec_u8`; `debug_assert!` is not checked in release builds. -/
def encodeVecU8 {α : Type} (c : Codec α) (items : List α) : Bytes :=
  UInt8.ofNat (encodeAll c items).length :: encodeAll c items

/-- crates/tls-core/src/msgs/codec.rs:188-200 `encode_vec_u16`. -/
def encodeVecU16 {α : Type} (c : Codec α) (items : List α) : Bytes :=
  beBytes 2 (UInt16.ofNat (encodeAll c items).length).toNat ++ encodeAll c items

/-- crates/tls-core/src/msgs/codec.rs:202-215 `encode_vec_u24`. -/
def encodeVecU24 {α : Type} (c : Codec α) (items : List α) : Bytes :=
  (beBytes 4 (UInt32.ofNat (encodeAll c items).length).toNat).drop 1 ++ encodeAll c items

/-- The loop `while sub.any_left() { ret.push(T::read(&mut sub)?) }` of crates/tls-core/src/msgs/codec.rs:222-224.  `fuel` bounds the number of
items; the initial number of bytes is enough because every item has at least one byte (for an item type with empty
encodings the Rust loop would not end). -/
def readItems {α : Type} (c : Codec α) : Nat → Reader → Option (List α)
  | 0, sub => if sub.anyLeft then none else some []
  | n + 1, sub =>
    if sub.anyLeft then
      match c.read sub with
      | none => none
      | some (x, sub) => (readItems c n sub).map (x :: ·)
    else some []

/-- crates/tls-core/src/msgs/codec.rs:217-227 `read_vec_u8`. -/
def readVecU8 {α : Type} (c : Codec α) : Rd (List α) := do
  let len ← codecU8.read
  let sub ← Rd.sub len.toNat
  Rd.lift (readItems c sub.left sub)

/-- crates/tls-core/src/msgs/codec.rs:229-239 `read_vec_u16`. -/
def readVecU16 {α : Type} (c : Codec α) : Rd (List α) := do
  let len ← codecU16.read
  let sub ← Rd.sub len.toNat
  Rd.lift (readItems c sub.left sub)

/-- crates/tls-core/src/msgs/codec.rs:241-256 `read_vec_u24_limited`. -/
def readVecU24Limited {α : Type} (c : Codec α) (maxBytes : Nat) : Rd (List α) := do
  let len ← codecU24.read
  if len.val.toNat > maxBytes then Rd.lift none
  else do
    let sub ← Rd.sub len.val.toNat
    Rd.lift (readItems c sub.left sub)

/-- crates/tls-core/src/msgs/base.rs:14-22, 33-35 `Codec for Payload`. -/
def codecPayload : Codec Bytes where
  encode v := v
  read := Rd.rest

/-- `let mut sub = r.sub(len)?; sub.rest().to_vec()`, crates/tls-core/src/msgs/base.rs:46-48, 72-74, 104-106, 153-155. -/
def readBody (len : Nat) : Rd Bytes := do
  let sub ← Rd.sub len
  return (sub.buf.drop sub.offs)

/-- crates/tls-core/src/msgs/base.rs:38-50 `Codec for key::Certificate` and crates/tls-core/src/msgs/base.rs:63-76 `Codec for PayloadU24`. -/
def codecPayloadU24 : Codec Bytes where
  encode v := codecU24.encode ⟨UInt32.ofNat v.length⟩ ++ v
  read := do
    let len ← codecU24.read
    readBody len.val.toNat

/-- crates/tls-core/src/msgs/base.rs:92-108 `Codec for PayloadU16`, `encode_slice`. -/
def codecPayloadU16 : Codec Bytes where
  encode v := codecU16.encode (UInt16.ofNat v.length) ++ v
  read := do
    let len ← codecU16.read
    readBody len.toNat

/-- crates/tls-core/src/msgs/base.rs:144-156 `Codec for PayloadU8`. -/
def codecPayloadU8 : Codec Bytes where
  encode v := codecU8.encode (UInt8.ofNat v.length) ++ v
  read := do
    let len ← codecU8.read
    readBody len.toNat

/-- crates/tls-core/src/msgs/macros.rs:24-32 `Codec` of an enumeration, for `ContentType`. -/
def codecContentType : Codec ContentType where
  encode t := codecU8.encode t.getU8
  read := do return ContentType.ofU8 (← codecU8.read)

/-- crates/tls-core/src/msgs/macros.rs:73-81 `Codec` of an enumeration, for `ProtocolVersion`. -/
def codecVersion : Codec ProtocolVersion where
  encode v := codecU16.encode v.getU16
  read := do return ProtocolVersion.ofU16 (← codecU16.read)

end Tlsn
