/-! # The session: its connection, the split driver and its handle

The connection is `tlsn_mux::Connection`, a crate outside of the repository: of it the model keeps whether it was told
to close, whether it is complete, and what it answers to a poll (any answer). -/

namespace Tlsn.Protocol

/-! ## An unsplit session -/

/-- The connection of a session: whether `close` was called, and whether `try_into_io` would give the channel. -/
structure Conn where
  told : Bool := false
  complete : Bool := false
deriving DecidableEq, Repr

/-- crates/tlsn/src/session.rs:38-42 `Session`; the executor and the handle of the multiplexer are left out. -/
structure Session where
  conn : Option Conn := some {}
deriving DecidableEq, Repr

/-- crates/tlsn/src/session.rs:100-105 `is_closed`: `unwrap_or_default` is `false` without a connection. -/
def Session.isClosed (s : Session) : Bool := (s.conn.map (·.complete)).getD false

/-- crates/tlsn/src/session.rs:111-115 `close` -/
def Session.close (s : Session) : Session := ⟨s.conn.map fun c => { c with told := true }⟩

/-- crates/tlsn/src/session.rs:118-131 `try_take`: whether the channel is given. -/
def Session.tryTake (s : Session) : Session × Bool :=
  match s.conn with
  | none => (s, false)
  | some c => if c.complete then (⟨none⟩, true) else (⟨some c⟩, false)

/-- crates/tlsn/src/session.rs:134-147 `poll`: `after` is the connection once it was polled and whether it gave an
error, or is ready; `none`: the error of a session without a connection. -/
def Session.poll (s : Session) (after : Conn → Conn) : Option Session := s.conn.map fun c => ⟨some (after c)⟩

/-- The calls on a session. -/
inductive SessionCall where
  | close
  | tryTake
  | poll (after : Conn → Conn)

/-- A call, and whether it gave the channel. -/
def Session.step (s : Session) : SessionCall → Session × Bool
  | .close => (s.close, false)
  | .tryTake => s.tryTake
  | .poll after => ((s.poll after).getD s, false)

/-- Any number of calls: how each went. -/
def Session.run : Session → List SessionCall → Session × List Bool
  | s, [] => (s, [])
  | s, c :: cs => ((s.step c).1.run cs |>.1, (s.step c).2 :: ((s.step c).1.run cs).2)

/-! ## A split session

The driver and the handle run at the same time.  `should_close` and the slot of the waker are shared; each access to
one of them is a step of the model, the steps of all the threads are interleaved in any way.  That each access is
atomic and seen by the later ones is right for this code: the slot is behind a lock, and of a `close` and a
poll whose flag accesses race, the one that gets the lock last sees what the other has done before it. -/

/-- Where the driver is in its `poll`. -/
inductive DriverAt where
  | idle
  /-- The waker is stored. -/
  | stored
  /-- The flag was read. -/
  | read
deriving DecidableEq, Repr

/-- What the connection answers to a poll; if it is ready, whether it gives the channel. -/
inductive ConnPoll where
  | pending
  | error
  | ready (io : Bool)
deriving DecidableEq, Repr

/-- What the driver answers. -/
inductive DriverOut where
  | pending
  | error
  | io
deriving DecidableEq, Repr

/-- Both halves of a split session: crates/tlsn/src/session.rs:189-193 `SessionDriver` and 248-253 `SessionHandle`,
with the positions of the threads. -/
structure Split where
  /-- The driver has its connection. -/
  conn : Bool := true
  /-- `Connection::close` was called. -/
  told : Bool := false
  shouldClose : Bool := false
  /-- A waker is in the slot. -/
  waker : Bool := false
  /-- The task of the driver was woken since its last poll began. -/
  woken : Bool := false
  driver : DriverAt := .idle
  /-- The calls of `close` that have set the flag and not yet looked at the slot. -/
  closing : Nat := 0
  /-- The driver was polled at least once. -/
  polled : Bool := false
  /-- The calls of `close` that have returned. -/
  closed : Nat := 0
  outs : List DriverOut := []
deriving DecidableEq, Repr

/-- A step of one of the threads. -/
inductive SplitStep where
  /-- The driver's task is polled: crates/tlsn/src/session.rs:200-205. -/
  | pollStart
  /-- crates/tlsn/src/session.rs:207-214 -/
  | readFlag
  /-- crates/tlsn/src/session.rs:216-230 -/
  | pollConn (r : ConnPoll)
  /-- The connection, or anything else, wakes the task. -/
  | wake
  /-- crates/tlsn/src/session.rs:288 -/
  | closeSet
  /-- crates/tlsn/src/session.rs:289-291 -/
  | closeWake
deriving DecidableEq, Repr

/-- The step, if the thread is at it. -/
def Split.step (s : Split) : SplitStep → Split
  | .pollStart => if s.driver = .idle then { s with driver := .stored, waker := true, woken := false, polled := true } else s
  | .readFlag =>
    if s.driver = .stored then
      if s.conn then { s with driver := .read, told := s.told || s.shouldClose }
      else { s with driver := .idle, outs := s.outs ++ [.error] }
    else s
  | .pollConn r =>
    if s.driver = .read then
      match r with
      | .pending => { s with driver := .idle, outs := s.outs ++ [.pending] }
      | .error => { s with driver := .idle, outs := s.outs ++ [.error] }
      | .ready io => { s with driver := .idle, conn := false, outs := s.outs ++ [if io then .io else .error] }
    else s
  | .wake => { s with woken := true }
  | .closeSet => { s with shouldClose := true, closing := s.closing + 1 }
  | .closeWake =>
    if s.closing = 0 then s
    else { s with closing := s.closing - 1, closed := s.closed + 1, waker := false, woken := s.woken || s.waker }

/-- Any interleaving. -/
def Split.run (l : List SplitStep) : Split := l.foldl Split.step {}

end Tlsn.Protocol
