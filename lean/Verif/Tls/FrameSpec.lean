import Verif.Tls.Frame

/-! # What deframing means

A byte stream is a sequence of records followed by an incomplete or an illegal one.
-/

namespace Tlsn

/-- The bytes of a record on the wire: type, version, length and payload. -/
def frameBytes (m : OpaqueMessage) : Bytes :=
  m.typ.getU8 :: (beBytes 2 m.version.getU16.toNat ++ (beBytes 2 m.payload.length ++ m.payload))

/-- The headers which are accepted.  The versions are 3.x; SSL 2.0 and DTLS 1.0 and 1.2 are let through as well. -/
def LegalHeader (typ : Byte) (version len : Nat) : Prop :=
  (typ = 0x14 ∨ typ = 0x15 ∨ typ = 0x16 ∨ typ = 0x17 ∨ typ = 0x18) ∧
  (version / 256 = 3 ∨ version = 0x0200 ∨ version = 0xFEFF ∨ version = 0xFEFD) ∧
  len < 18432 ∧ (len = 0 → typ = 0x17)

/-- The bytes start with the header. -/
def HasHeader (bs : Bytes) (typ : Byte) (version len : Nat) (body : Bytes) : Prop :=
  version < 65536 ∧ len < 65536 ∧ bs = typ :: (beBytes 2 version ++ (beBytes 2 len ++ body))

/-- `stream` consists of the records `frames` and then `rest`; `rest` has an illegal header if `desynced` is set and is
incomplete otherwise. -/
structure Deframed (stream : Bytes) (frames : List OpaqueMessage) (desynced : Bool) (rest : Bytes) : Prop where
  split : stream = (frames.map frameBytes).flatten ++ rest
  legal : ∀ m ∈ frames, LegalHeader m.typ.getU8 m.version.getU16.toNat m.payload.length ∧
    ContentType.ofU8 m.typ.getU8 = m.typ ∧ ProtocolVersion.ofU16 m.version.getU16 = m.version
  illegal : desynced = true → ∃ t v l body, HasHeader rest t v l body ∧ ¬ LegalHeader t v l
  incomplete : desynced = false → rest.length < 5 ∨
    ∃ t v l body, HasHeader rest t v l body ∧ LegalHeader t v l ∧ body.length < l

/-- What happens to a deframer: a read while the source is willing to deliver `size` bytes, or the owner takes a
frame. -/
inductive DeframeOp where
  | read (size : Nat)
  | pop

/-- A deframer, the bytes its source still has, and the frames that the owner has taken. -/
structure DeframeState where
  d : Deframer
  source : Bytes
  taken : List OpaqueMessage

/-- One step. -/
def DeframeState.step (s : DeframeState) : DeframeOp → DeframeState
  | .read size =>
    let (d, n) := s.d.read (s.source.take size)
    ⟨d, s.source.drop n, s.taken⟩
  | .pop =>
    match s.d.frames with
    | [] => s
    | m :: ms => ⟨{ s.d with frames := ms }, s.source, s.taken ++ [m]⟩

/-- A history, from the start. -/
def deframeRun (stream : Bytes) (ops : List DeframeOp) : DeframeState :=
  ops.foldl DeframeState.step ⟨Deframer.new, stream, []⟩

/-- The bytes of a handshake message: type, length and body. -/
def hsBytes (m : Byte × Bytes) : Bytes := m.1 :: (beBytes 3 m.2.length ++ m.2)

/-- `stream` consists of complete handshake messages, which parse to `msgs`, and then `rest`; if `bad` then `rest`
starts with a message that is larger than allowed or does not parse, otherwise it is incomplete. -/
def Joined {μ : Type} (parse : Byte → Bytes → Option μ) (stream : Bytes) (msgs : List μ) (bad : Bool) (rest : Bytes) :
    Prop :=
  ∃ raw : List (Byte × Bytes), stream = (raw.map hsBytes).flatten ++ rest ∧
    (∀ m ∈ raw, m.2.length ≤ 65535) ∧ raw.map (fun m => parse m.1 m.2) = msgs.map some ∧
    (bad = true → (∃ t len body, len < 2 ^ 24 ∧ rest = t :: (beBytes 3 len ++ body) ∧ len > 65535) ∨
      ∃ t body more, body.length ≤ 65535 ∧ rest = hsBytes (t, body) ++ more ∧ parse t body = none) ∧
    (bad = false → rest.length < 4 ∨
      ∃ t len body, len ≤ 65535 ∧ rest = t :: (beBytes 3 len ++ body) ∧ body.length < len)

/-- A joiner is given records one by one until it fails; the result says whether it is still usable and how many messages
it has announced. -/
def joinRun {μ : Type} (parse : Byte → ProtocolVersion → Bytes → Option μ) :
    List OpaqueMessage → Joiner μ → Nat → Joiner μ × Option Nat
  | [], j, n => (j, some n)
  | m :: ms, j, n =>
    match j.takeMessage parse m with
    | (j, some k) => joinRun parse ms j (n + k)
    | (j, none) => (j, none)

end Tlsn
