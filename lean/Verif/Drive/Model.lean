import Verif.Client.Conn
import Verif.Client.FlowSpec

/-!
# The prover while it is connected

Model of crates/tlsn/src/prover.rs:287-318, 336-508, crates/tlsn/src/prover/future.rs and crates/tlsn/src/prover/client/mpc.rs.
The futures of the connection run inside `poll`; whether a future is ready is up to the environment, and so is what the socket
and the application do between two polls.  Wakers are left out: the theorems are about any sequence of polls.

The two in-memory pipes come from the `futures_plex` crate, which is not part of the repository.  A pipe is taken to be a queue of
bytes: `poll_get` gives a non-empty front of the queue, an empty slice if the queue is empty and its writer has closed it, and is
pending otherwise; `poll_mut` gives room at the back, is pending, or fails.  The locks of the pipes are taken to be free: the prover
uses its ends from within `poll` only.
-/

namespace Tlsn.Drive

open Tlsn.Client

/-- What is outside of the client: `W` as before, whether the leader's record layer is empty (crates/mpc-tls/src/client/conn.rs:107-109
`is_empty`) and whether it hands out its transcript (669-673 `finish`); both may depend on what has happened. -/
structure Outside where
  W : World
  isEmpty : List Ev → Bool
  finish : List Ev → Bool

/-- crates/tlsn/src/error.rs `Error`, as far as it matters here. -/
inductive DErr where
  | client (e : CErr)
  /-- crates/tlsn/src/prover/client/mpc.rs:407-410: `vm.finalize` fails. -/
  | finalize
  /-- An error of the socket or of a pipe. -/
  | io
  /-- crates/tlsn/src/prover/client/mpc.rs:316-321, crates/tlsn/src/prover/future.rs:80-85: polled again. -/
  | polledAgain
  /-- crates/tlsn/src/prover.rs:340-397 `finish` fails. -/
  | finish
  deriving DecidableEq, Repr

/-- crates/tlsn/src/prover/client/mpc.rs:326-333 `InnerState`.  `trace` is a ghost: the calls made on the connection with their replies. -/
structure Inner where
  conn : Conn
  decrypt : Bool
  clientClosed : Bool
  trace : List (Call × CReply)

/-- A call on the connection. -/
def Inner.call (cfg : ClientCfg) (W : World) (k : Call) (i : Inner) : Inner × CReply :=
  ({ i with conn := (i.conn.step cfg W k).1, trace := i.trace ++ [(k, (i.conn.step cfg W k).2)] }, (i.conn.step cfg W k).2)

/-- How a future ends. -/
inductive FutRes where
  | ok
  | err (e : CErr)
  | dropped
  | panicked
  deriving DecidableEq, Repr

/-- What `map_err(..)?` makes of a reply. -/
def futRes : CReply → FutRes
  | .err e => .err e
  | .dropped => .dropped
  | .panicked => .panicked
  | _ => .ok

/-- crates/tlsn/src/prover/client/mpc.rs:352-365: the loop of `run`.  A loop which does not end within `k` iterations is treated as if the future were dropped. -/
def runLoop (cfg : ClientCfg) (W : World) (n : Nat) : Nat → Nat → Nat → Inner → Inner × FutRes
  | 0, _, _, i => (i, .dropped)
  | k + 1, w, r, i =>
    match i.call cfg W (.process n) with
    | (i, .io w' r') => if r' = r ∧ w' = w then (i, .ok) else runLoop cfg W n k w' r' i
    | (i, reply) => (i, futRes reply)

/-- crates/tlsn/src/prover/client/mpc.rs:346-368 `run`; `n` bounds all loops. -/
def runFut (cfg : ClientCfg) (W : World) (n : Nat) (i : Inner) : Inner × FutRes :=
  match i.call cfg W (.process n) with
  | (i, .io w r) => runLoop cfg W n n w r i
  | (i, reply) => (i, futRes reply)

/-- crates/tlsn/src/prover/client/mpc.rs:371-383 `client_close`. -/
def clientCloseFut (cfg : ClientCfg) (W : World) (n : Nat) (i : Inner) : Inner × FutRes :=
  match runFut cfg W n i with
  | (i, .ok) =>
    if i.clientClosed then (i, .ok)
    else
      match i.call cfg W .sendCloseNotify with
      | (i, .dropped) => (i, .dropped)
      | (i, .panicked) => (i, .panicked)
      | (i, _) => ({ i with clientClosed := true }, .ok)
  | r => r

/-- crates/tlsn/src/prover/client/mpc.rs:386-396 `server_close`. -/
def serverCloseFut (cfg : ClientCfg) (W : World) (n : Nat) (i : Inner) : Inner × FutRes :=
  match runFut cfg W n i with
  | (i, .ok) => ((i.call cfg W .serverClosed).1, futRes (i.call cfg W .serverClosed).2)
  | r => r

/-- crates/tlsn/src/prover/client/mpc.rs:337-343 `start`. -/
def startFut (cfg : ClientCfg) (W : World) (i : Inner) : Inner × FutRes :=
  ((i.call cfg W .start).1, futRes (i.call cfg W .start).2)

/-- The futures that drive the connection. -/
inductive Fut where
  | start
  | run
  | clientClose
  | serverClose
  deriving DecidableEq, Repr

/-- A future from its beginning to its end.  The connection belongs to the future, so nothing else happens to it in between. -/
def Fut.exec (cfg : ClientCfg) (W : World) (n : Nat) : Fut → Inner → Inner × FutRes
  | .start => startFut cfg W
  | .run => runFut cfg W n
  | .clientClose => clientCloseFut cfg W n
  | .serverClose => serverCloseFut cfg W n

/-- crates/tlsn/src/prover/client/mpc.rs:34-55 `State`. -/
inductive Phase where
  | start
  | active
  | busy (fut : Fut)
  | closeActive
  | closeBusy (fut : Fut)
  | finalizing
  | finished
  | error
  deriving DecidableEq, Repr

/-- crates/tlsn/src/prover/client/mpc.rs:27-32 `MpcTlsClient`.  The connection is kept beside the state.  In `Finished` and `Error` the code has dropped it: there
`inner` is a ghost.  `decrypt` is the setting that is shared with `ProverControl` (crates/tlsn/src/prover/control.rs:9-11). -/
structure MpcClient where
  phase : Phase
  inner : Inner
  decrypt : Bool
  clientWantsClose : Bool
  serverClosed : Bool

/-- crates/tlsn/src/prover/client/mpc.rs:58-96 `new`; `decrypt` is `is_decrypting` of the leader. -/
def MpcClient.new (conn : Conn) (decrypt : Bool) : MpcClient :=
  ⟨.start, ⟨conn, decrypt, false, []⟩, decrypt, false, false⟩

/-- crates/tlsn/src/prover/client/mpc.rs:106-112 `inner_client`: whether the connection is at hand. -/
def MpcClient.open? (c : MpcClient) : Bool :=
  match c.phase with
  | .active | .closeActive => true
  | _ => false

/-- crates/tlsn/src/prover/client/mpc.rs:118-124 `wants_read_tls`. -/
def MpcClient.wantsReadTls (c : MpcClient) : Bool := c.open? && c.inner.conn.wantsRead

/-- crates/tlsn/src/prover/client/mpc.rs:154-160 `wants_read`. -/
def MpcClient.wantsRead (c : MpcClient) : Bool := c.open? && !c.inner.conn.io.common.received.isEmpty

/-- crates/tlsn/src/prover/client/mpc.rs:162-168 `wants_write`. -/
def MpcClient.wantsWrite (c : MpcClient) : Bool := c.open? && !c.inner.conn.io.common.sendable.isFull

/-- A call on the connection. -/
def MpcClient.call (cfg : ClientCfg) (W : World) (k : Call) (c : MpcClient) : MpcClient × CReply :=
  ({ c with inner := (c.inner.call cfg W k).1 }, (c.inner.call cfg W k).2)

/-- crates/tlsn/src/prover/client/mpc.rs:134-142 `read_tls`. -/
def MpcClient.readTls (cfg : ClientCfg) (W : World) (buf : Bytes) (c : MpcClient) : MpcClient × CReply :=
  if c.open? && c.inner.conn.wantsRead then c.call cfg W (.readTls buf) else (c, .count 0)

/-- crates/tlsn/src/prover/client/mpc.rs:144-152 `write_tls`, into a buffer of `room` bytes. -/
def MpcClient.writeTls (cfg : ClientCfg) (W : World) (room : Nat) (c : MpcClient) : MpcClient × CReply :=
  if c.open? && c.inner.conn.wantsWrite then c.call cfg W (.writeTls room) else (c, .data [])

/-- crates/tlsn/src/prover/client/mpc.rs:170-178 `read`, into a buffer of `room` bytes. -/
def MpcClient.read (cfg : ClientCfg) (W : World) (room : Nat) (c : MpcClient) : MpcClient × CReply :=
  if c.open? && !c.inner.conn.io.common.received.isEmpty then c.call cfg W (.readPlaintext room) else (c, .data [])

/-- crates/tlsn/src/prover/client/mpc.rs:180-190 `write`. -/
def MpcClient.write (cfg : ClientCfg) (W : World) (buf : Bytes) (c : MpcClient) : MpcClient × CReply :=
  if c.open? && !c.inner.conn.io.common.sendable.isFull then c.call cfg W (.writePlaintext buf) else (c, .count 0)

/-- What `poll` returns.  `overflow` says that the recursion of `poll` goes on. -/
inductive PRes where
  | pending
  | ready
  | err (e : DErr)
  | dropped
  | panicked
  | overflow
  deriving DecidableEq, Repr

/-- Whether a future is ready when it is polled: the first `poll` of a future, the second, and so on within one `poll` of the client.
`some n` says that it is, and bounds its loops. `finalize` is for the future of crates/tlsn/src/prover/client/mpc.rs:399-417. -/
structure Ticks where
  fut : Nat → Option Nat
  finalize : Option Bool

/-- After a future was polled. -/
def Ticks.next (t : Ticks) : Ticks := { t with fut := fun k => t.fut (k + 1) }

/-- crates/tlsn/src/prover/client/mpc.rs:216-245: what `poll` starts if the client is active. -/
def MpcClient.activate (cfg : ClientCfg) (W : World) (c : MpcClient) : MpcClient :=
  if c.inner.conn.isHandshaking then { c with phase := .busy .run }
  else if c.serverClosed then { c with phase := .closeBusy .serverClose }
  else if c.clientWantsClose then { c with phase := .busy .clientClose }
  else if c.decrypt ≠ c.inner.decrypt then
    { c with phase := .busy .run, inner := { (c.inner.call cfg W (.enableDecryption c.decrypt)).1 with decrypt := c.decrypt } }
  else { c with phase := .busy .run }

/-- crates/tlsn/src/prover/client/mpc.rs:419-421 `is_record_layer_empty`. -/
def Inner.layerEmpty (X : Outside) (i : Inner) : Bool :=
  i.conn.io.common.received.isEmpty && X.isEmpty i.conn.io.common.log

/-- crates/tlsn/src/prover/client/mpc.rs:208: `poll` leaves the state `Error` behind when it returns an error or panics. -/
def MpcClient.failed (c : MpcClient) (i : Inner) (r : PRes) : MpcClient × PRes := ({ c with phase := .error, inner := i }, r)

/-- How a future that did not succeed ends `poll`. -/
def badEnd : FutRes → PRes
  | .err e => .err (.client e)
  | .panicked => .panicked
  | _ => .dropped

/-- crates/tlsn/src/prover/client/mpc.rs:204-323 `poll`.  The function calls itself; the first argument bounds the depth. -/
def MpcClient.poll (cfg : ClientCfg) (X : Outside) : Nat → Ticks → MpcClient → MpcClient × PRes
  | 0, _, c => (c, .overflow)
  | f + 1, t, c =>
    match c.phase with
    | .start => MpcClient.poll cfg X f t { c with phase := .busy .start }
    | .active => MpcClient.poll cfg X f t (c.activate cfg X.W)
    | .busy fut =>
      match t.fut 0 with
      | none => (c, .pending)
      | some n =>
        match fut.exec cfg X.W n c.inner with
        | (i, .ok) =>
          if c.serverClosed then MpcClient.poll cfg X f t.next { c with phase := .active, inner := i }
          else ({ c with phase := .active, inner := i }, .pending)
        | (i, r) => c.failed i (badEnd r)
    | .closeActive => MpcClient.poll cfg X f t { c with phase := .closeBusy .run }
    | .closeBusy fut =>
      match t.fut 0 with
      | none => (c, .pending)
      | some n =>
        match fut.exec cfg X.W n c.inner with
        | (i, .ok) =>
          if i.layerEmpty X then
            if X.finish i.conn.io.common.log then MpcClient.poll cfg X f t.next { c with phase := .finalizing, inner := i }
            else c.failed i .panicked
          else ({ c with phase := .closeActive, inner := i }, .pending)
        | (i, r) => c.failed i (badEnd r)
    | .finalizing =>
      match t.finalize with
      | none => (c, .pending)
      | some true => ({ c with phase := .finished }, .ready)
      | some false => c.failed c.inner (.err .finalize)
    | .finished => c.failed c.inner (.err .polledAgain)
    | .error => c.failed c.inner (.err .polledAgain)

/-! ## The prover -/

/-- What reading from the socket gives; `eof` is a read of zero bytes. -/
inductive SockRead where
  | pending
  | eof
  | data (b : Bytes)
  | failed
  deriving DecidableEq, Repr

/-- What writing gives: to the socket, or into the pipe to the application.  `broken` is `BrokenPipe` or `ConnectionReset`. -/
inductive Sink where
  | pending
  | takes (n : Nat)
  | broken
  | failed
  deriving DecidableEq, Repr

/-- The environment during one poll. -/
structure Env where
  /-- `poll_get` of the pipe from the application gives up to `appGet + 1` bytes. -/
  appGet : Nat
  socketRead : SockRead
  /-- `poll_get` of the pipe from the socket gives up to `serverGet + 1` bytes. -/
  serverGet : Nat
  fuel : Nat
  ticks : Ticks
  /-- Room in the pipe to the socket. -/
  room : Nat
  socketWrite : Sink
  appSink : Sink
  /-- crates/tlsn/src/prover.rs:310-311: the two `poll_close`; `some false` is an error. -/
  closeApp : Option Bool
  closeSocket : Option Bool
  /-- crates/tlsn/src/prover/future.rs:70: the future that finishes; `some false` is an error of `finish`. -/
  finish : Option Bool

/-- crates/tlsn/src/prover/future.rs:16-25 `FutureState`; `finishing (some e)` is the future that yields the error `e`. -/
inductive FPhase where
  | connected
  | finishing (e : Option DErr)
  | done
  | error
  deriving DecidableEq, Repr

/-- crates/tlsn/src/prover/state.rs:35-50 `Connected`, in its future.  The last four fields are ghosts: all that the application has
written and read, and all that was read from and written to the socket. -/
structure Driver where
  client : MpcClient
  output : Bool
  /-- Written by the application, not yet taken. -/
  appIn : Bytes
  appClosed : Bool
  /-- For the application, not yet read. -/
  appOut : Bytes
  fromServer : Bytes
  toServer : Bytes
  clientClosed : Bool
  serverClosed : Bool
  phase : FPhase
  appWrote : Bytes
  appRead : Bytes
  socketIn : Bytes
  socketOut : Bytes

/-- crates/tlsn/src/prover.rs:166-214 `connect`, for the connection `conn`. -/
def Driver.new (conn : Conn) (decrypt : Bool) : Driver :=
  ⟨MpcClient.new conn decrypt, false, [], false, [], [], [], false, false, .connected, [], [], [], []⟩

/-- crates/tlsn/src/prover.rs:403-421: from the application to the client. -/
def Driver.takeApp (cfg : ClientCfg) (W : World) (e : Env) (d : Driver) : Driver :=
  if d.appIn ≠ [] then
    if d.client.wantsWrite then
      match d.client.write cfg W (d.appIn.take (e.appGet + 1)) with
      | (c, .count n) => { d with client := c, appIn := d.appIn.drop n }
      | (c, _) => { d with client := c }
    else d
  else if d.appClosed && !d.clientClosed && !d.serverClosed then
    { d with clientClosed := true, client := { d.client with clientWantsClose := true } }
  else d

/-- crates/tlsn/src/prover.rs:423-433: from the socket to the pipe. -/
def Driver.takeSocket (e : Env) (d : Driver) : Driver × Option DErr :=
  match e.socketRead with
  | .pending => (d, none)
  | .eof => ({ d with serverClosed := true }, none)
  | .data b => ({ d with fromServer := d.fromServer ++ b, socketIn := d.socketIn ++ b }, none)
  | .failed => (d, some .io)

/-- crates/tlsn/src/prover.rs:435-451: from the pipe to the client. -/
def Driver.takeServer (cfg : ClientCfg) (W : World) (e : Env) (d : Driver) : Driver :=
  if d.fromServer ≠ [] then
    if d.client.wantsReadTls then
      match d.client.readTls cfg W (d.fromServer.take (e.serverGet + 1)) with
      | (c, .count n) => { d with client := c, fromServer := d.fromServer.drop n }
      | (c, _) => { d with client := c }
    else d
  else if d.serverClosed then { d with client := { d.client with serverClosed := true } }
  else d

/-- crates/tlsn/src/prover.rs:399-454 `io_to_tls_client`. -/
def Driver.ioTo (cfg : ClientCfg) (W : World) (e : Env) (d : Driver) : Driver × Option DErr :=
  match (d.takeApp cfg W e).takeSocket e with
  | (d, none) => (d.takeServer cfg W e, none)
  | (d, some err) => (d, some err)

/-- crates/tlsn/src/prover.rs:460-471: from the client to the pipe. -/
def Driver.giveServer (cfg : ClientCfg) (W : World) (e : Env) (d : Driver) : Driver :=
  match d.client.writeTls cfg W e.room with
  | (c, .data b) => { d with client := c, toServer := d.toServer ++ b }
  | (c, _) => { d with client := c }

/-- crates/tlsn/src/prover.rs:473-483: from the pipe to the socket. -/
def Driver.giveSocket (e : Env) (d : Driver) : Driver × Option DErr :=
  match e.socketWrite with
  | .takes n => ({ d with toServer := d.toServer.drop n, socketOut := d.socketOut ++ d.toServer.take n }, none)
  | .failed => (d, some .io)
  | _ => (d, none)

/-- crates/tlsn/src/prover.rs:485-504: from the client to the application. -/
def Driver.giveApp (cfg : ClientCfg) (W : World) (e : Env) (d : Driver) : Driver × Option DErr :=
  match e.appSink with
  | .takes room =>
    if d.client.wantsRead then
      match d.client.read cfg W room with
      | (c, .data b) => ({ d with client := c, appOut := d.appOut ++ b }, none)
      | (c, _) => ({ d with client := c }, none)
    else (d, none)
  | .failed => (d, some .io)
  | _ => (d, none)

/-- crates/tlsn/src/prover.rs:456-507 `io_from_tls_client`. -/
def Driver.ioFrom (cfg : ClientCfg) (W : World) (e : Env) (d : Driver) : Driver × Option DErr :=
  match (d.giveServer cfg W e).giveSocket e with
  | (d, none) => d.giveApp cfg W e
  | (d, some err) => (d, some err)

/-- crates/tlsn/src/prover.rs:309-316. -/
def Driver.close (e : Env) (d : Driver) : PRes :=
  if d.serverClosed && d.output then
    match e.closeApp with
    | none => .pending
    | some false => .err .io
    | some true =>
      match e.closeSocket with
      | none => .pending
      | some false => .err .io
      | some true => .ready
  else .pending

/-- crates/tlsn/src/prover.rs:301-305. -/
def Driver.pollClient (cfg : ClientCfg) (X : Outside) (e : Env) (d : Driver) : Driver × PRes :=
  if d.output then (d, .pending)
  else
    match d.client.poll cfg X e.fuel e.ticks with
    | (c, .ready) => ({ d with client := c, output := true }, .pending)
    | (c, r) => ({ d with client := c }, r)

/-- crates/tlsn/src/prover.rs:296-317 `poll`. -/
def Driver.poll (cfg : ClientCfg) (X : Outside) (e : Env) (d : Driver) : Driver × PRes :=
  match d.ioTo cfg X.W e with
  | (d, some err) => (d, .err err)
  | (d, none) =>
    match d.pollClient cfg X e with
    | (d, .pending) =>
      match d.ioFrom cfg X.W e with
      | (d, some err) => (d, .err err)
      | (d, none) => (d, d.close e)
    | (d, r) => (d, r)

/-- What the user's future returns. -/
inductive Reply where
  | pending
  | committed
  | err (e : DErr)
  | dropped
  | panicked
  | overflow
  /-- The call was not a poll. -/
  | none
  deriving DecidableEq, Repr

/-- crates/tlsn/src/prover/future.rs:70-79, with what the future yields: crates/tlsn/src/prover.rs:340-397 `finish`, or the error after the handles are closed
(crates/tlsn/src/prover/future.rs:56-62). -/
def Driver.finishing (e : Env) (d : Driver) (err : Option DErr) : Driver × Reply :=
  match e.finish with
  | .none => ({ d with phase := .finishing err }, .pending)
  | some ok =>
    match err with
    | some err => ({ d with phase := .error }, .err err)
    | .none => if ok then ({ d with phase := .done }, .committed) else ({ d with phase := .error }, .err .finish)

/-- crates/tlsn/src/prover/future.rs:33-87 `poll`. -/
def Driver.pollFuture (cfg : ClientCfg) (X : Outside) (e : Env) (d : Driver) : Driver × Reply :=
  match d.phase with
  | .connected =>
    match d.poll cfg X e with
    | (d, .ready) => d.finishing e .none
    | (d, .err err) => d.finishing e (some err)
    | (d, .pending) => (d, .pending)
    | (d, .dropped) => ({ d with phase := .error }, .dropped)
    | (d, .panicked) => ({ d with phase := .error }, .panicked)
    | (d, .overflow) => ({ d with phase := .error }, .overflow)
  | .finishing err => d.finishing e err
  | .done => ({ d with phase := .error }, .err .polledAgain)
  | .error => (d, .err .polledAgain)

/-- crates/tlsn/src/prover/future.rs:94-96 `is_terminated`. -/
def Driver.isTerminated (d : Driver) : Bool := d.phase == .done

/-- What happens: the future is polled, the application uses its connection (crates/tlsn/src/prover/conn.rs:29-56), or the user changes the setting
(crates/tlsn/src/prover/control.rs:24-26). -/
inductive Act where
  | poll (e : Env)
  | appWrite (b : Bytes)
  | appClose
  | appRead (n : Nat)
  | setDecrypt (b : Bool)

/-- One of these. -/
def Driver.step (cfg : ClientCfg) (X : Outside) (d : Driver) : Act → Driver × Reply
  | .poll e => d.pollFuture cfg X e
  | .appWrite b => (if d.appClosed then d else { d with appIn := d.appIn ++ b, appWrote := d.appWrote ++ b }, .none)
  | .appClose => ({ d with appClosed := true }, .none)
  | .appRead n => ({ d with appOut := d.appOut.drop n, appRead := d.appRead ++ d.appOut.take n }, .none)
  | .setDecrypt b => ({ d with client := { d.client with decrypt := b } }, .none)

/-- A whole history; the second component lists what happened with what was returned. -/
def Driver.run (cfg : ClientCfg) (X : Outside) (d : Driver) (acts : List Act) : Driver × List (Act × Reply) :=
  Sdk.runCalls (Driver.step cfg X) d acts

end Tlsn.Drive
