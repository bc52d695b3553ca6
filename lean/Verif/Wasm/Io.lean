import Verif.Base.Basic

/-! # The adapter of a JavaScript channel

crates/wasm/src/io.rs gives a JavaScript object with `read`, `write` and `close` to the protocol as a byte stream.
What the object does is outside of the model: each operation is given what the object answers if it is asked, and any
answer is allowed.

Left out: the lock around the state (`lock_state`; one thread uses the adapter, and nothing panics while the lock is
held), the texts of the errors (a number stands for the text), and that `Uint8Array::new` also turns values which are no
arrays into bytes: a value is an array of bytes, or null or undefined. -/

namespace Tlsn.Wasm

/-- What a call of `read` or `close` of the JavaScript object gives: a promise, or an exception. -/
inductive Call where
  | promise
  | threw (e : Nat)
deriving DecidableEq, Repr

/-- What a call of `write` gives: a promise, which is fulfilled or rejected at some later time, or an exception. -/
inductive WriteCall where
  | promise (fulfilled : Bool)
  | threw (e : Nat)
deriving DecidableEq, Repr

/-- What the promise of a `read` gives when it is polled: a value is the bytes, or `none` for null and undefined. -/
inductive Answer where
  | pending
  | value (v : Option Bytes)
  | rejected (e : Nat)
deriving DecidableEq, Repr

/-- `Poll<std::io::Result<α>>` -/
inductive IoPoll (α : Type) where
  | pending
  | ok (a : α)
  /-- An error with a text. -/
  | err (e : Nat)
  /-- `BrokenPipe`, "stream closed" -/
  | broken
deriving DecidableEq, Repr

/-- crates/wasm/src/io.rs:48-61 `AdapterState`; `pending`: a promise is kept in `pending_read`. -/
structure Adapter where
  buffer : Bytes
  eof : Bool
  pending : Bool
  waker : Option Nat
  closed : Bool
  error : Option Nat
deriving DecidableEq, Repr

/-- What happens at the two sides of the adapter, in order. -/
inductive Ev where
  /-- `read` of the object was called. -/
  | jsRead (c : Call)
  /-- The promise of the last `read` was polled, for this task. -/
  | jsPoll (task : Nat) (a : Answer)
  | jsWrite (data : Bytes) (c : WriteCall)
  | jsClose (c : Call)
  /-- A read into a buffer of `len` bytes returned; `ok data`: these bytes are now in the buffer. -/
  | gotRead (len task : Nat) (r : IoPoll Bytes)
  /-- A write of `data` returned; `ok n`: that `n` bytes were written. -/
  | gotWrite (data : Bytes) (r : IoPoll Nat)
  | gotFlush (r : IoPoll Unit)
  | gotClose (r : IoPoll Unit)
deriving DecidableEq, Repr

/-- crates/wasm/src/io.rs:79-92 `JsIoAdapter::new` -/
def Adapter.new : Adapter := ⟨[], false, false, none, false, none⟩

/-- crates/wasm/src/io.rs:145-190 The kept promise is polled. -/
def Adapter.pollPending (a : Adapter) (len task : Nat) (ans : Answer) : Adapter × List Ev × IoPoll Bytes :=
  match ans with
  | .value none => ({ a with pending := false, eof := true }, [.jsPoll task ans], .ok [])
  | .value (some bytes) =>
    if bytes.isEmpty then ({ a with pending := false, eof := true }, [.jsPoll task ans], .ok [])
    else
      let toRead := min len bytes.length
      let rest := if bytes.length > toRead then a.buffer ++ bytes.drop toRead else a.buffer
      ({ a with pending := false, buffer := rest }, [.jsPoll task ans], .ok (bytes.take toRead))
  | .rejected e => ({ a with pending := false, error := some e }, [.jsPoll task ans], .err e)
  | .pending => (a, [.jsPoll task ans], .pending)

/-- crates/wasm/src/io.rs:96-196 `poll_read` into a buffer of `len` bytes; `call`: what the object answers if `read` is
called, `ans`: what its promise gives if it is polled. -/
def Adapter.pollRead (a : Adapter) (len task : Nat) (call : Call) (ans : Answer) :
    Adapter × List Ev × IoPoll Bytes :=
  match a.error with
  | some e => (a, [], .err e)
  | none =>
    if !a.buffer.isEmpty then
      let toRead := min len a.buffer.length
      ({ a with buffer := a.buffer.drop toRead }, [], .ok (a.buffer.take toRead))
    else if a.eof then (a, [], .ok [])
    else
      let a := { a with waker := some task }
      if a.pending then a.pollPending len task ans
      else
        match call with
        | .promise =>
          let (a, evs, r) := { a with pending := true }.pollPending len task ans
          (a, .jsRead call :: evs, r)
        | .threw e => ({ a with error := some e }, [.jsRead call], .err e)

/-- crates/wasm/src/io.rs:200-242 `poll_write`: the promise is dropped, so the adapter never learns of its fate. -/
def Adapter.pollWrite (a : Adapter) (buf : Bytes) (call : WriteCall) : Adapter × List Ev × IoPoll Nat :=
  match a.error with
  | some e => (a, [], .err e)
  | none =>
    if a.closed then (a, [], .broken)
    else
      match call with
      | .promise _ => (a, [.jsWrite buf call], .ok buf.length)
      | .threw e => (a, [.jsWrite buf call], .err e)

/-- crates/wasm/src/io.rs:242-245 `poll_flush` -/
def Adapter.pollFlush (a : Adapter) : Adapter × List Ev × IoPoll Unit := (a, [], .ok ())

/-- crates/wasm/src/io.rs:247-270 `poll_close` -/
def Adapter.pollClose (a : Adapter) (call : Call) : Adapter × List Ev × IoPoll Unit :=
  if a.closed then (a, [], .ok ())
  else
    match call with
    | .promise => ({ a with closed := true }, [.jsClose call], .ok ())
    | .threw e => (a, [.jsClose call], .err e)

/-- An operation on the stream, with what the JavaScript object answers if it is asked. -/
inductive Op where
  | read (len task : Nat) (call : Call) (ans : Answer)
  | write (data : Bytes) (call : WriteCall)
  | flush
  | close (call : Call)
deriving DecidableEq, Repr

/-- One operation: the adapter after it, and what happened. -/
def Adapter.step (a : Adapter) : Op → Adapter × List Ev
  | .read len task call ans => let (a, evs, r) := a.pollRead len task call ans; (a, evs ++ [.gotRead len task r])
  | .write data call => let (a, evs, r) := a.pollWrite data call; (a, evs ++ [.gotWrite data r])
  | .flush => let (a, evs, r) := a.pollFlush; (a, evs ++ [.gotFlush r])
  | .close call => let (a, evs, r) := a.pollClose call; (a, evs ++ [.gotClose r])

/-- Any number of operations. -/
def Adapter.run : Adapter → List Op → Adapter × List Ev
  | a, [] => (a, [])
  | a, o :: os =>
    let (a, evs) := a.step o
    let (a, more) := a.run os
    (a, evs ++ more)

/-! ## The adapter for hyper -/

/-- The buffer that hyper reads into (`hyper::rt::ReadBuf`): the bytes that are filled, and its size. -/
structure ReadBuf where
  filled : Bytes
  size : Nat
deriving DecidableEq, Repr

/-- crates/sdk-core/src/io.rs:88-108 `HyperIo::poll_read`: `inner` is `poll_read` of the stream below, for a buffer of
the given size.  The bytes it put in the buffer are counted as filled. -/
def hyperRead (inner : Nat → IoPoll Bytes) (b : ReadBuf) : ReadBuf × IoPoll Unit :=
  match inner (b.size - b.filled.length) with
  | .ok data => ({ b with filled := b.filled ++ data }, .ok ())
  | .pending => (b, .pending)
  | .err e => (b, .err e)
  | .broken => (b, .broken)

end Tlsn.Wasm
