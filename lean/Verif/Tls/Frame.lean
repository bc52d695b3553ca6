import Verif.Tls.Codec

/-!
# Model of crates/tls-core/src/msgs/{message,deframer,fragmenter,hsjoiner}.rs
-/

namespace Tlsn

/-- crates/tls-core/src/msgs/message.rs:68-73 `OpaqueMessage`, crates/tls-core/src/msgs/message.rs:174-178 `PlainMessage` and crates/tls-core/src/msgs/message.rs:256-260 `BorrowedPlainMessage`
(the same data; the conversions between them copy the fields). -/
structure OpaqueMessage where
  typ : ContentType
  version : ProtocolVersion
  payload : Bytes
  deriving DecidableEq, Repr

/-- crates/tls-core/src/msgs/message.rs:264-270 `MessageError`. -/
inductive MessageError where
  | tooShortForHeader
  | tooShortForLength
  | illegalLength
  | illegalContentType
  | illegalProtocolVersion
  deriving DecidableEq, Repr

/-- crates/tls-core/src/msgs/message.rs:141 `MAX_PAYLOAD`. -/
def maxPayload : UInt16 := 16384 + 2048

/-- crates/tls-core/src/msgs/message.rs:147 `MAX_WIRE_SIZE`. -/
def maxWireSize : Nat := maxPayload.toNat + 5

/-- The pattern `ContentType::Unknown(_)`, crates/tls-core/src/msgs/message.rs:96. -/
def ContentType.isUnknown : ContentType → Bool
  | .unknown _ => true
  | _ => false

/-- crates/tls-core/src/msgs/message.rs:101-106: only `Unknown` versions are examined. -/
def ProtocolVersion.isIllegal : ProtocolVersion → Bool
  | .unknown v => v &&& 0xff00 != 0x0300
  | _ => false

/-- crates/tls-core/src/msgs/message.rs:77-115 `OpaqueMessage::read`. -/
def OpaqueMessage.read (r : Reader) : Outcome MessageError (OpaqueMessage × Reader) :=
  match codecContentType.read r with
  | none => .err .tooShortForHeader
  | some (typ, r) =>
    match codecVersion.read r with
    | none => .err .tooShortForHeader
    | some (version, r) =>
      match codecU16.read r with
      | none => .err .tooShortForHeader
      | some (len, r) =>
        if typ ≠ .applicationData ∧ len = 0 then .err .illegalLength
        else if len ≥ maxPayload then .err .illegalLength
        else if typ.isUnknown then .err .illegalContentType
        else if version.isIllegal then .err .illegalProtocolVersion
        else
          match readBody len.toNat r with
          | none => .err .tooShortForLength
          | some (payload, r) => .ok (⟨typ, version, payload⟩, r)

/-- crates/tls-core/src/msgs/message.rs:117-124 `OpaqueMessage::encode`. -/
def OpaqueMessage.encode (m : OpaqueMessage) : Bytes :=
  codecContentType.encode m.typ ++ (codecVersion.encode m.version ++
    (codecU16.encode (UInt16.ofNat m.payload.length) ++ m.payload))

/-- crates/tls-core/src/msgs/deframer.rs:11-26 `MessageDeframer`; `buf` is the whole fixed-size array. -/
structure Deframer where
  frames : List OpaqueMessage
  desynced : Bool
  buf : Bytes
  used : Nat
  deriving DecidableEq, Repr

/-- crates/tls-core/src/msgs/deframer.rs:28-38 `BufferContents`. -/
inductive BufferContents where
  | invalid
  | incomplete
  | valid
  deriving DecidableEq, Repr

/-- crates/tls-core/src/msgs/deframer.rs:47-54 `new`. -/
def Deframer.new : Deframer := ⟨[], false, List.replicate maxWireSize 0, 0⟩

/-- crates/tls-core/src/msgs/deframer.rs:138-159 `buf_consume`. -/
def Deframer.bufConsume (d : Deframer) (taken : Nat) : Deframer :=
  if taken < d.used then
    { d with
      buf := (d.buf.take d.used).drop taken ++ d.buf.drop (d.used - taken)
      used := d.used - taken }
  else if taken = d.used then { d with used := 0 }
  else d

/-- crates/tls-core/src/msgs/deframer.rs:120-136 `try_deframe_one`. -/
def Deframer.tryDeframeOne (d : Deframer) : Deframer × BufferContents :=
  match OpaqueMessage.read (Reader.init (d.buf.take d.used)) with
  | .ok (m, rd) => ({ d with frames := d.frames ++ [m] }.bufConsume rd.used, .valid)
  | .err .tooShortForHeader => (d, .incomplete)
  | .err .tooShortForLength => (d, .incomplete)
  | _ => (d, .invalid)

/-- The loop of crates/tls-core/src/msgs/deframer.rs:69-78; `fuel` bounds the number of frames, each of which has at least one byte. -/
def Deframer.deframe : Nat → Deframer → Deframer
  | 0, d => d
  | n + 1, d =>
    match d.tryDeframeOne with
    | (d, .invalid) => { d with desynced := true }
    | (d, .valid) => Deframer.deframe n d
    | (d, .incomplete) => d

/-- crates/tls-core/src/msgs/deframer.rs:59-81 `read` (and `read_async`, 86-108, which is the same) when the source has the bytes `avail`
ready: a reader fills at most the free part of the buffer.  Returns the number of bytes read. -/
def Deframer.read (d : Deframer) (avail : Bytes) : Deframer × Nat :=
  let new := avail.take (d.buf.length - d.used)
  let d₁ : Deframer :=
    { d with
      buf := d.buf.take d.used ++ new ++ d.buf.drop (d.used + new.length)
      used := d.used + new.length }
  (d₁.deframe (d₁.used + 1), new.length)

/-- crates/tls-core/src/msgs/deframer.rs:113-115 `has_pending`. -/
def Deframer.hasPending (d : Deframer) : Bool := !d.frames.isEmpty || decide (d.used > 0)

/-- crates/tls-core/src/msgs/fragmenter.rs:15-17 `MessageFragmenter`. -/
structure Fragmenter where
  maxFrag : Nat
  deriving DecidableEq, Repr

/-- crates/tls-core/src/msgs/fragmenter.rs:25-29, 69-76 `new`, `set_max_fragment_size`; `none` is `BadMaxFragmentSize`. -/
def Fragmenter.new : Option Nat → Option Fragmenter
  | some sz => if 32 ≤ sz ∧ sz ≤ 16384 + 5 then some ⟨sz - 5⟩ else none
  | none => some ⟨16384⟩

/-- `slice::chunks`, with a bound on the number of chunks (a chunk has at least one byte). -/
def chunksOf (n : Nat) : Nat → Bytes → List Bytes
  | 0, _ => []
  | fuel + 1, l => if l = [] then [] else l.take n :: chunksOf n fuel (l.drop n)

/-- crates/tls-core/src/msgs/fragmenter.rs:35-50 `fragment`: the messages appended to `out`. -/
def Fragmenter.fragment (f : Fragmenter) (msg : OpaqueMessage) : List OpaqueMessage :=
  if msg.payload.length ≤ f.maxFrag then [msg]
  else (chunksOf f.maxFrag msg.payload.length msg.payload).map fun c => ⟨msg.typ, msg.version, c⟩

/-- crates/tls-core/src/msgs/fragmenter.rs:54-67 `fragment_borrow`. -/
def Fragmenter.fragmentBorrow (f : Fragmenter) (typ : ContentType) (version : ProtocolVersion) (payload : Bytes) :
    List OpaqueMessage :=
  (chunksOf f.maxFrag payload.length payload).map fun c => ⟨typ, version, c⟩

/-- crates/tls-core/src/msgs/handshake.rs:2183-2280 `HandshakeMessagePayload::read_version`, where `parse` is the
`match` on the type with the check that the body is used up. -/
def readHandshake {μ : Type} (parse : Byte → ProtocolVersion → Bytes → Option μ) (vers : ProtocolVersion) : Rd μ := do
  let typ ← codecU8.read
  let len ← codecU24.read
  let body ← readBody len.val.toNat
  Rd.lift (parse typ vers body)

/-- crates/tls-core/src/msgs/hsjoiner.rs:20-26 `HandshakeJoiner`. -/
structure Joiner (μ : Type) where
  frames : List μ
  buf : Bytes

/-- crates/tls-core/src/msgs/hsjoiner.rs:34-43 `BufferState`. -/
inductive BufferState where
  | tooLarge
  | oneMessage
  | needsMoreData
  deriving DecidableEq, Repr

/-- crates/tls-core/src/msgs/hsjoiner.rs:100-111 `buf_contains_message`. -/
def bufContainsMessage (buf : Bytes) : BufferState :=
  if buf.length < 4 then .needsMoreData
  else match U24.decode ((buf.take 4).drop 1) with
    | some len =>
      if len.val > 0xffff then .tooLarge
      else if len.val.toNat ≤ (buf.drop 4).length then .oneMessage
      else .needsMoreData
    | none => .needsMoreData

/-- crates/tls-core/src/msgs/hsjoiner.rs:117-137 `deframe_one`; the version of the message is not kept. -/
def Joiner.deframeOne {μ : Type} (parse : Byte → ProtocolVersion → Bytes → Option μ) (j : Joiner μ)
    (vers : ProtocolVersion) : Option (Joiner μ) :=
  match readHandshake parse vers (Reader.init j.buf) with
  | none => none
  | some (m, rd) => some ⟨j.frames ++ [m], j.buf.drop rd.used⟩

/-- The loop of crates/tls-core/src/msgs/hsjoiner.rs:79-92; `fuel` bounds the number of messages.  The Boolean says whether the joiner is still
usable. -/
def Joiner.loop {μ : Type} (parse : Byte → ProtocolVersion → Bytes → Option μ) (vers : ProtocolVersion) :
    Nat → Joiner μ → Nat → Joiner μ × Option Nat
  | 0, j, count => (j, some count)
  | n + 1, j, count =>
    match bufContainsMessage j.buf with
    | .tooLarge => (j, none)
    | .needsMoreData => (j, some count)
    | .oneMessage =>
      match j.deframeOne parse vers with
      | none => (j, none)
      | some j => Joiner.loop parse vers n j (count + 1)

/-- crates/tls-core/src/msgs/hsjoiner.rs:71-95 `take_message`. -/
def Joiner.takeMessage {μ : Type} (parse : Byte → ProtocolVersion → Bytes → Option μ) (j : Joiner μ)
    (msg : OpaqueMessage) : Joiner μ × Option Nat :=
  let j : Joiner μ := { j with buf := if j.buf.isEmpty then msg.payload else j.buf ++ msg.payload }
  j.loop parse msg.version (j.buf.length + 1) 0

end Tlsn
