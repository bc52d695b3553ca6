import Verif.Base.Basic

/-! # Model of crates/mpc-tls/src/client/vecbuf.rs -/

namespace Tlsn

/-- crates/mpc-tls/src/client/vecbuf.rs:8-11 `ChunkVecBuffer`. -/
structure VecBuf where
  chunks : List Bytes
  limit : Option Nat
  deriving DecidableEq, Repr

/-- crates/mpc-tls/src/client/vecbuf.rs:14-19 `new`. -/
def VecBuf.new (limit : Option Nat) : VecBuf := ⟨[], limit⟩

/-- crates/mpc-tls/src/client/vecbuf.rs:22-24 `is_empty`. -/
def VecBuf.isEmpty (b : VecBuf) : Bool := b.chunks.isEmpty

/-- crates/mpc-tls/src/client/vecbuf.rs:36-42 `len`. -/
def VecBuf.len (b : VecBuf) : Nat := b.chunks.foldl (fun n c => n + c.length) 0

/-- crates/mpc-tls/src/client/vecbuf.rs:27-33 `is_full`. -/
def VecBuf.isFull (b : VecBuf) : Bool :=
  match b.limit with
  | some l => decide (b.len ≥ l)
  | none => false

/-- crates/mpc-tls/src/client/vecbuf.rs:47-54 `apply_limit`. -/
def VecBuf.applyLimit (b : VecBuf) (len : Nat) : Nat :=
  match b.limit with
  | some l => min len (l - b.len)
  | none => len

/-- crates/mpc-tls/src/client/vecbuf.rs:65-73 `append`. -/
def VecBuf.append (b : VecBuf) (bytes : Bytes) : VecBuf × Nat :=
  (if bytes.isEmpty then b else { b with chunks := b.chunks ++ [bytes] }, bytes.length)

/-- crates/mpc-tls/src/client/vecbuf.rs:58-62 `append_limited_copy`. -/
def VecBuf.appendLimited (b : VecBuf) (bytes : Bytes) : VecBuf × Nat :=
  let take := b.applyLimit bytes.length
  ((b.append (bytes.take take)).1, take)

/-- crates/mpc-tls/src/client/vecbuf.rs:77-79 `pop`. -/
def VecBuf.pop (b : VecBuf) : VecBuf × Option Bytes :=
  match b.chunks with
  | [] => (b, none)
  | c :: cs => ({ b with chunks := cs }, some c)

/-- crates/mpc-tls/src/client/vecbuf.rs:96-105 `consume`. -/
def consumeChunks : List Bytes → Nat → List Bytes
  | [], _ => []
  | c :: cs, used => if used < c.length then c.drop used :: cs else consumeChunks cs (used - c.length)

/-- The loop of crates/mpc-tls/src/client/vecbuf.rs:86-91, where `room` is the free part of the caller's buffer; an iteration fills the buffer or
removes a chunk, so the number of chunks bounds the iterations.  Returns the bytes written. -/
def readChunks : Nat → List Bytes → Nat → List Bytes × Bytes
  | 0, chunks, _ => (chunks, [])
  | n + 1, chunks, room =>
    if room = 0 then (chunks, [])
    else match chunks with
      | [] => ([], [])
      | c :: cs =>
        let used := min c.length room
        let p := readChunks n (consumeChunks (c :: cs) used) (room - used)
        (p.1, c.take used ++ p.2)

/-- crates/mpc-tls/src/client/vecbuf.rs:83-94 `read` into a buffer of `room` bytes. -/
def VecBuf.read (b : VecBuf) (room : Nat) : VecBuf × Bytes :=
  let p := readChunks (b.chunks.length + 1) b.chunks room
  ({ b with chunks := p.1 }, p.2)

/-- crates/mpc-tls/src/client/vecbuf.rs:108-121 `write_to` a writer which takes at most `accept` bytes of the up to 64 chunks it is offered. -/
def VecBuf.writeTo (b : VecBuf) (accept : Nat) : VecBuf × Bytes :=
  if b.isEmpty then (b, [])
  else
    let offered := (b.chunks.take 64).flatten
    let used := min accept offered.length
    ({ b with chunks := consumeChunks b.chunks used }, offered.take used)

end Tlsn
