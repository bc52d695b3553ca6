import Verif.Base.RangeSet

/-!
# Model of crates/core/src/transcript.rs
-/

namespace Tlsn

/-- crates/core/src/transcript.rs:438-444 `Direction`. -/
inductive Direction where
  | sent
  | received
  deriving DecidableEq, Repr

/-- crates/core/src/transcript.rs:48-54 `Transcript`. -/
structure Transcript where
  sent : Bytes
  received : Bytes
  deriving DecidableEq, Repr

/-- crates/core/src/connection.rs `TranscriptLength` (two `u32`). -/
structure TranscriptLength where
  sent : Nat
  received : Nat
  deriving DecidableEq, Repr

/-- Selects the data of a direction, as the `match direction` blocks in transcript.rs do. -/
def Transcript.data (t : Transcript) : Direction → Bytes
  | .sent => t.sent
  | .received => t.received

/-- crates/core/src/transcript.rs:84-89 `len_of_direction`. -/
def Transcript.lenOfDirection (t : Transcript) : Direction → Nat
  | .sent => t.sent.length
  | .received => t.received.length

/-- crates/core/src/transcript.rs:92-97 `length`: casts both lengths with `as u32`. -/
def Transcript.length (t : Transcript) : TranscriptLength :=
  { sent := t.sent.length % 2 ^ 32, received := t.received.length % 2 ^ 32 }

/-- `data.index(idx).fold(Vec::new(), extend_from_slice)` (crates/core/src/transcript.rs:114-117, 198-211):
concatenation of the slices; panics (`none`) if a range is out of bounds. -/
def gather (data : Bytes) : List Rng → Option Bytes
  | [] => some []
  | r :: rs => do
    let s ← slice data r.1 r.2
    let t ← gather data rs
    pure (s ++ t)

/-- The loop `for range in idx { dst[range].copy_from_slice(&src[range]) }`
(crates/core/src/transcript.rs:141-147, 363-372). -/
def copyRanges (src : Bytes) : List Rng → Bytes → Option Bytes
  | [], dst => some dst
  | r :: rs, dst => do
    let s ← slice src r.1 r.2
    let d ← writeAt dst r.1 s
    copyRanges src rs d

/-- `dst[r].copy_from_slice(src)` for a source of the length of `r`: panics (`none`) when the range
is reversed or out of bounds. -/
def overwrite (dst : Bytes) (r : Rng) (src : Bytes) : Option Bytes :=
  if r.1 ≤ r.2 ∧ r.2 ≤ dst.length then writeAt dst r.1 src else none

/-- The loop `for range in idx { dst[range].copy_from_slice(&data[offset..offset+range.len()]);
offset += range.len() }` (crates/core/src/transcript.rs:225-239, 503-509). -/
def scatter (data : Bytes) : List Rng → Nat → Bytes → Option Bytes
  | [], _, dst => some dst
  | r :: rs, off, dst => do
    let s ← slice data off (off + (r.2 - r.1))
    let d ← overwrite dst r s
    scatter data rs (off + (r.2 - r.1)) d

/-- The loop `for range in ranges { dst[range].fill(value) }` (crates/core/src/transcript.rs:403-408, 421-428). -/
def fillRanges (v : Byte) : List Rng → Bytes → Option Bytes
  | [], dst => some dst
  | r :: rs, dst => do
    let d ← overwrite dst r (List.replicate (r.2 - r.1) v)
    fillRanges v rs d

/-- crates/core/src/transcript.rs:458-463 `Subsequence`. -/
structure Subsequence where
  idx : RangeSet
  data : Bytes
  deriving DecidableEq

/-- crates/core/src/transcript.rs:467-475 `Subsequence::new` (also the deserialization check,
crates/core/src/transcript.rs:526-532); `none` is the `Err` result. -/
def Subsequence.new (idx : RangeSet) (data : Bytes) : Option Subsequence :=
  if idx.len ≠ data.length then none else some { idx, data }

/-- crates/core/src/transcript.rs:503-509 `Subsequence::copy_to`; `none` is a panic. -/
def Subsequence.copyTo (s : Subsequence) (dst : Bytes) : Option Bytes :=
  scatter s.data s.idx.ranges 0 dst

/-- crates/core/src/transcript.rs:101-121 `Transcript::get`.  `ok none` is the Rust `None`;
`panic` covers the slice indexing and the `expect`. -/
def Transcript.get (t : Transcript) (d : Direction) (idx : RangeSet) :
    Outcome Empty (Option Subsequence) :=
  if idx.endD > (t.data d).length then .ok none
  else match gather (t.data d) idx.ranges with
    | none => .panic
    | some bs => match Subsequence.new idx bs with
      | none => .panic
      | some s => .ok (some s)

/-- crates/core/src/transcript.rs:166-175 `PartialTranscript`. -/
structure PartialTranscript where
  sent : Bytes
  received : Bytes
  sentAuthed : RangeSet
  receivedAuthed : RangeSet
  deriving DecidableEq

namespace PartialTranscript

/-- Data of a direction (`sent_unsafe` / `received_unsafe`, crates/core/src/transcript.rs:297-310). -/
def data (p : PartialTranscript) : Direction → Bytes
  | .sent => p.sent
  | .received => p.received

/-- Authenticated set of a direction (`sent_authed` / `received_authed`, crates/core/src/transcript.rs:313-320). -/
def authed (p : PartialTranscript) : Direction → RangeSet
  | .sent => p.sentAuthed
  | .received => p.receivedAuthed

/-- crates/core/src/transcript.rs:257-264 `PartialTranscript::new`. -/
def new (sentLen recvLen : Nat) : PartialTranscript :=
  { sent := List.replicate sentLen 0, received := List.replicate recvLen 0
    sentAuthed := ∅, receivedAuthed := ∅ }

/-- crates/core/src/transcript.rs:277-280 `is_complete`. -/
def isComplete (p : PartialTranscript) : Bool :=
  p.sentAuthed.len == p.sent.length && p.receivedAuthed.len == p.received.length

/-- crates/core/src/transcript.rs:283-288 `contains`. -/
def contains (p : PartialTranscript) (d : Direction) (idx : RangeSet) : Bool :=
  idx.endD ≤ (p.data d).length

/-- crates/core/src/transcript.rs:323-334 `sent_unauthed` / `received_unauthed`. -/
def unauthed (p : PartialTranscript) (d : Direction) : RangeSet :=
  (RangeSet.ofRange 0 (p.data d).length).diff (p.authed d)

/-- crates/core/src/transcript.rs:337-344 `iter`; `none` is an indexing panic. -/
def iter (p : PartialTranscript) (d : Direction) : Option Bytes :=
  (p.authed d).values.mapM fun i => (p.data d)[i]?

/-- crates/core/src/transcript.rs:351-377 `union_transcript`; `none` is a panic. -/
def unionTranscript (p o : PartialTranscript) : Option PartialTranscript :=
  if p.sent.length ≠ o.sent.length then none
  else if p.received.length ≠ o.received.length then none
  else do
    let sent ← copyRanges o.sent (o.sentAuthed.diff p.sentAuthed).ranges p.sent
    let received ← copyRanges o.received (o.receivedAuthed.diff p.receivedAuthed).ranges p.received
    pure { sent, received
           sentAuthed := p.sentAuthed.union o.sentAuthed
           receivedAuthed := p.receivedAuthed.union o.receivedAuthed }

/-- crates/core/src/transcript.rs:384-395 `union_subsequence`; `none` is a panic. -/
def unionSubsequence (p : PartialTranscript) (d : Direction) (s : Subsequence) :
    Option PartialTranscript :=
  match d with
  | .sent => do
    let sent ← s.copyTo p.sent
    pure { p with sent, sentAuthed := p.sentAuthed.union s.idx }
  | .received => do
    let received ← s.copyTo p.received
    pure { p with received, receivedAuthed := p.receivedAuthed.union s.idx }

/-- crates/core/src/transcript.rs:402-409 `set_unauthed`; `none` is a panic. -/
def setUnauthed (p : PartialTranscript) (v : Byte) : Option PartialTranscript := do
  let sent ← fillRanges v (p.unauthed .sent).ranges p.sent
  let received ← fillRanges v (p.unauthed .received).ranges p.received
  pure { p with sent, received }

/-- crates/core/src/transcript.rs:418-431 `set_unauthed_range`; `none` is a panic. -/
def setUnauthedRange (p : PartialTranscript) (v : Byte) (d : Direction) (lo hi : Nat) :
    Option PartialTranscript :=
  match d with
  | .sent => do
    let sent ← fillRanges v ((RangeSet.ofRange lo hi).diff p.sentAuthed).ranges p.sent
    pure { p with sent }
  | .received => do
    let received ← fillRanges v ((RangeSet.ofRange lo hi).diff p.receivedAuthed).ranges p.received
    pure { p with received }

end PartialTranscript

/-- crates/core/src/transcript.rs:133-155 `Transcript::to_partial`; `none` is a panic. -/
def Transcript.toPartial (t : Transcript) (sentIdx recvIdx : RangeSet) :
    Option PartialTranscript := do
  let sent ← copyRanges t.sent sentIdx.ranges (List.replicate t.sent.length 0)
  let received ← copyRanges t.received recvIdx.ranges (List.replicate t.received.length 0)
  pure { sent, received, sentAuthed := sentIdx, receivedAuthed := recvIdx }

/-- crates/core/src/transcript.rs:180-193 `CompressedPartialTranscript`. -/
structure Compressed where
  sentAuthed : Bytes
  receivedAuthed : Bytes
  sentIdx : RangeSet
  recvIdx : RangeSet
  sentTotal : Nat
  recvTotal : Nat
  deriving DecidableEq

/-- crates/core/src/transcript.rs:195-218 `From<PartialTranscript>`; `none` is a panic. -/
def PartialTranscript.compress (p : PartialTranscript) : Option Compressed := do
  let s ← gather p.sent p.sentAuthed.ranges
  let r ← gather p.received p.receivedAuthed.ranges
  pure { sentAuthed := s, receivedAuthed := r, sentIdx := p.sentAuthed,
         recvIdx := p.receivedAuthed, sentTotal := p.sent.length, recvTotal := p.received.length }

/-- `isize::MAX` on a 64-bit target, the most bytes a `Vec<u8>` can have: `vec![0; n]` panics beyond it. -/
def vecLimit : Nat := 2 ^ 63 - 1

/-- crates/core/src/transcript.rs:220-248 `From<CompressedPartialTranscript>`; `none` is a panic.  That memory may run
out below `vecLimit` is not modelled. -/
def Compressed.decompress (c : Compressed) : Option PartialTranscript :=
  if vecLimit < c.sentTotal ∨ vecLimit < c.recvTotal then none else do
  let sent ← scatter c.sentAuthed c.sentIdx.ranges 0 (List.replicate c.sentTotal 0)
  let received ← scatter c.receivedAuthed c.recvIdx.ranges 0 (List.replicate c.recvTotal 0)
  pure { sent, received, sentAuthed := c.sentIdx, receivedAuthed := c.recvIdx }

/-- Errors of crates/core/src/transcript.rs:537 `InvalidCompressedPartialTranscript`. -/
inductive CompressedError where
  | lengthMismatch
  | outOfBounds
  deriving DecidableEq, Repr

/-- crates/core/src/transcript.rs:550-579 `TryFrom<CompressedPartialTranscriptUnchecked>`: the check
applied to whatever a peer sends. -/
def Compressed.validate (c : Compressed) : Except CompressedError Compressed :=
  if c.sentAuthed.length ≠ c.sentIdx.len ∨ c.receivedAuthed.length ≠ c.recvIdx.len then
    .error .lengthMismatch
  else if c.sentIdx.endD > c.sentTotal ∨ c.recvIdx.endD > c.recvTotal then
    .error .outOfBounds
  else .ok c

/-- Deserialization of a `PartialTranscript` from the already parsed fields
(`serde(try_from = ...)`, crates/core/src/transcript.rs:163, 179): validation, then decompression. -/
def PartialTranscript.deserialize (c : Compressed) : Outcome CompressedError PartialTranscript :=
  match c.validate with
  | .error e => .err e
  | .ok c => Outcome.ofPanic c.decompress

end Tlsn
