import Verif.Proxy.Model
import Verif.Drive.Model

/-!
# The prover of the proxy mode while it is connected

crates/tlsn/src/prover/client/proxy/mod.rs, and crates/tlsn/src/prover.rs:296-317, 399-508 with this client.

`rustls` is outside the repository: a connection is any state with the calls that the client makes.  The pipes and the socket are
those of `Verif.Drive.Model`; in addition, a socket that has ended gives nothing more.
-/

namespace Tlsn.Proxy

open Tlsn.Drive (SockRead Sink)

/-- `rustls::ClientConnection`, as far as it is used, together with the key log
(crates/tlsn/src/prover/client/proxy/keylog.rs:22-35).  `none` is an error. -/
structure Engine (σ : Type) where
  /-- `read_tls`: how many of the bytes were taken. -/
  readTls : σ → Bytes → Option (Nat × σ)
  /-- `write_tls`, into a buffer of the given size. -/
  writeTls : σ → Nat → Option (Bytes × σ)
  /-- `reader().read`, into a buffer of the given size; nothing if it would block. -/
  read : σ → Nat → Option (Bytes × σ)
  /-- `writer().write`: how many of the bytes were taken. -/
  write : σ → Bytes → Option (Nat × σ)
  /-- `process_new_packets`. -/
  process : σ → Option σ
  isHandshaking : σ → Bool
  wantsRead : σ → Bool
  closeNotify : σ → σ
  /-- The master secret that was logged, empty before. -/
  masterSecret : σ → Bytes

/-- crates/tlsn/src/prover/client/proxy/mod.rs:47-62 `State`.  `finalizing` holds the arguments of `ProxyProver::finalize`. -/
inductive ClientPhase where
  | init
  | handshaking
  | connected (sentCloseNotify : Bool)
  | finalizing (ms : Bytes) (time : Nat) (traffic : TlsBytes)
  | error
  deriving DecidableEq, Repr

/-- crates/tlsn/src/prover/client/proxy/mod.rs:36-46 `ProxyTlsClient`.  The setting for decryption is never read. -/
structure ProxyClient (σ : Type) where
  conn : σ
  time : Option Nat := none
  traffic : TlsBytes := {}
  clientClosed : Bool := false
  serverClosed : Bool := false
  phase : ClientPhase := .init

variable {σ : Type}

/-- crates/tlsn/src/prover/client/proxy/mod.rs:157-159 `wants_read`. -/
def ProxyClient.wantsRead (c : ProxyClient σ) : Bool :=
  match c.phase with
  | .connected _ => true
  | _ => false

/-- crates/tlsn/src/prover/client/proxy/mod.rs:161-166 `wants_write`. -/
def ProxyClient.wantsWrite (c : ProxyClient σ) : Bool :=
  (match c.phase with
  | .handshaking => true
  | .connected _ => true
  | _ => false) && !c.clientClosed

/-- crates/tlsn/src/prover/client/proxy/mod.rs:137-145 `read_tls`. -/
def ProxyClient.readTls (E : Engine σ) (buf : Bytes) (c : ProxyClient σ) : Option (Nat × ProxyClient σ) :=
  match E.readTls c.conn buf with
  | none => none
  | some (n, conn) => some (n, { c with conn, traffic := { c.traffic with tlsRecv := c.traffic.tlsRecv ++ buf.take n } })

/-- crates/tlsn/src/prover/client/proxy/mod.rs:147-155 `write_tls`. -/
def ProxyClient.writeTls (E : Engine σ) (room : Nat) (c : ProxyClient σ) : Option (Bytes × ProxyClient σ) :=
  match E.writeTls c.conn room with
  | none => none
  | some (b, conn) => some (b, { c with conn, traffic := { c.traffic with tlsSent := c.traffic.tlsSent ++ b } })

/-- crates/tlsn/src/prover/client/proxy/mod.rs:168-177 `read`. -/
def ProxyClient.read (E : Engine σ) (room : Nat) (c : ProxyClient σ) : Option (Bytes × ProxyClient σ) :=
  match E.read c.conn room with
  | none => none
  | some (b, conn) => some (b, { c with conn, traffic := { c.traffic with appRecv := c.traffic.appRecv ++ b } })

/-- crates/tlsn/src/prover/client/proxy/mod.rs:179-188 `write`. -/
def ProxyClient.write (E : Engine σ) (buf : Bytes) (c : ProxyClient σ) : Option (Nat × ProxyClient σ) :=
  match E.write c.conn buf with
  | none => none
  | some (n, conn) => some (n, { c with conn, traffic := { c.traffic with appSent := c.traffic.appSent ++ buf.take n } })

/-- What `poll` returns. -/
inductive ClientPoll where
  | pending
  | ready (ms : Bytes) (time : Nat) (traffic : TlsBytes)
  | err
  deriving DecidableEq, Repr

/-- crates/tlsn/src/prover/client/proxy/mod.rs:283-292: `done` says whether the future of `finalize` is ready, and whether without an error of the channel;
`fin` says whether `finalize` succeeds otherwise. -/
def ProxyClient.pollFinalizing (fin : Bytes → Nat → TlsBytes → Bool) (done : Option Bool) (ms : Bytes) (time : Nat)
    (traffic : TlsBytes) (c : ProxyClient σ) : ProxyClient σ × ClientPoll :=
  match done with
  | none => ({ c with phase := .finalizing ms time traffic }, .pending)
  | some true =>
    if fin ms time traffic then ({ c with phase := .error }, .ready ms time traffic) else ({ c with phase := .error }, .err)
  | some false => ({ c with phase := .error }, .err)

/-- crates/tlsn/src/prover/client/proxy/mod.rs:237-282. -/
def ProxyClient.pollConnected (E : Engine σ) (fin : Bytes → Nat → TlsBytes → Bool) (done : Option Bool) (sentCloseNotify : Bool)
    (c : ProxyClient σ) : ProxyClient σ × ClientPoll :=
  match E.process c.conn with
  | none => ({ c with phase := .error }, .err)
  | some conn =>
    if c.serverClosed then
      if E.masterSecret conn = [] then ({ c with conn, phase := .error }, .err)
      else
        match c.time with
        | none => ({ c with conn, phase := .error }, .err)
        | some time =>
          ProxyClient.pollFinalizing fin done (E.masterSecret conn) time c.traffic { c with conn, traffic := {} }
    else if c.clientClosed && !sentCloseNotify then
      -- crates/tlsn/src/prover/client/proxy/mod.rs:274: `poll` calls itself
      match E.process (E.closeNotify conn) with
      | none => ({ c with conn := E.closeNotify conn, phase := .error }, .err)
      | some conn => ({ c with conn, phase := .connected true }, .pending)
    else ({ c with conn, phase := .connected sentCloseNotify }, .pending)

/-- crates/tlsn/src/prover/client/proxy/mod.rs:212-236; `now` is the time. -/
def ProxyClient.pollHandshaking (E : Engine σ) (fin : Bytes → Nat → TlsBytes → Bool) (done : Option Bool) (now : Nat)
    (c : ProxyClient σ) : ProxyClient σ × ClientPoll :=
  match E.process c.conn with
  | none => ({ c with phase := .error }, .err)
  | some conn =>
    if E.isHandshaking conn then ({ c with conn, phase := .handshaking }, .pending)
    else ProxyClient.pollConnected E fin done false { c with conn, time := some now, phase := .connected false }

/-- crates/tlsn/src/prover/client/proxy/mod.rs:202-297 `poll`. -/
def ProxyClient.poll (E : Engine σ) (fin : Bytes → Nat → TlsBytes → Bool) (done : Option Bool) (now : Nat) (c : ProxyClient σ) :
    ProxyClient σ × ClientPoll :=
  match c.phase with
  | .init => ProxyClient.pollHandshaking E fin done now { c with phase := .handshaking }
  | .handshaking => ProxyClient.pollHandshaking E fin done now c
  | .connected sent => ProxyClient.pollConnected E fin done sent c
  | .finalizing ms time traffic => ProxyClient.pollFinalizing fin done ms time traffic c
  | .error => (c, .err)

/-! ## The prover -/

/-- The environment during one poll. -/
structure Ready where
  /-- `poll_get` of the pipe from the application gives up to `appGet + 1` bytes. -/
  appGet : Nat := 0
  socketRead : SockRead := .pending
  /-- `poll_get` of the pipe from the socket gives up to `serverGet + 1` bytes. -/
  serverGet : Nat := 0
  now : Nat := 0
  done : Option Bool := none
  /-- Room in the pipe to the socket. -/
  room : Nat := 0
  socketWrite : Sink := .pending
  appSink : Sink := .pending
  /-- crates/tlsn/src/prover.rs:310-311: the two `poll_close`; `some false` is an error. -/
  closeApp : Option Bool := none
  closeSocket : Option Bool := none

/-- Whether the prover is still polled. -/
inductive Status where
  | running
  | closed
  | failed
  deriving DecidableEq, Repr

/-- crates/tlsn/src/prover/state.rs:35-50 `Connected`.  The last five fields are ghosts: what was handed to `finalize`, all that
the application has written and read, and all that was read from and written to the socket. -/
structure ProxyDriver (σ : Type) where
  client : ProxyClient σ
  output : Option (Bytes × Nat × TlsBytes) := none
  /-- Written by the application, not yet taken. -/
  appIn : Bytes := []
  appClosed : Bool := false
  /-- For the application, not yet read. -/
  appOut : Bytes := []
  fromServer : Bytes := []
  toServer : Bytes := []
  clientClosed : Bool := false
  serverClosed : Bool := false
  status : Status := .running
  final : Option (Bytes × Nat × TlsBytes) := none
  appWrote : Bytes := []
  appRead : Bytes := []
  socketIn : Bytes := []
  socketOut : Bytes := []

/-- Polling ends with an error. -/
def ProxyDriver.fail (d : ProxyDriver σ) : ProxyDriver σ := { d with status := .failed }

/-- crates/tlsn/src/prover.rs:403-421: from the application to the client. -/
def ProxyDriver.takeApp (E : Engine σ) (e : Ready) (d : ProxyDriver σ) : ProxyDriver σ :=
  if d.appIn ≠ [] then
    if d.client.wantsWrite then
      match d.client.write E (d.appIn.take (e.appGet + 1)) with
      | none => d.fail
      | some (n, c) => { d with client := c, appIn := d.appIn.drop n }
    else d
  else if d.appClosed && !d.clientClosed && !d.serverClosed then
    { d with clientClosed := true, client := { d.client with clientClosed := true } }
  else d

/-- crates/tlsn/src/prover.rs:423-433: from the socket to the pipe. -/
def ProxyDriver.takeSocket (e : Ready) (d : ProxyDriver σ) : ProxyDriver σ :=
  match e.socketRead with
  | .pending => d
  | .eof => { d with serverClosed := true }
  | .data b => if d.serverClosed then d else { d with fromServer := d.fromServer ++ b, socketIn := d.socketIn ++ b }
  | .failed => d.fail

/-- crates/tlsn/src/prover.rs:435-451: from the pipe to the client. -/
def ProxyDriver.takeServer (E : Engine σ) (e : Ready) (d : ProxyDriver σ) : ProxyDriver σ :=
  if d.fromServer ≠ [] then
    if E.wantsRead d.client.conn then
      match d.client.readTls E (d.fromServer.take (e.serverGet + 1)) with
      | none => d.fail
      | some (n, c) => { d with client := c, fromServer := d.fromServer.drop n }
    else d
  else if d.serverClosed then { d with client := { d.client with serverClosed := true } }
  else d

/-- crates/tlsn/src/prover.rs:301-305. -/
def ProxyDriver.pollClient (E : Engine σ) (fin : Bytes → Nat → TlsBytes → Bool) (e : Ready) (d : ProxyDriver σ) : ProxyDriver σ :=
  if d.output.isSome then d
  else
    match d.client.poll E fin e.done e.now with
    | (c, .err) => { d with client := c, status := .failed }
    | (c, .ready ms time traffic) => { d with client := c, output := some (ms, time, traffic), final := some (ms, time, traffic) }
    | (c, .pending) =>
      { d with client := c, final := match c.phase with | .finalizing ms time traffic => some (ms, time, traffic) | _ => d.final }

/-- crates/tlsn/src/prover.rs:460-471: from the client to the pipe. -/
def ProxyDriver.giveServer (E : Engine σ) (e : Ready) (d : ProxyDriver σ) : ProxyDriver σ :=
  match d.client.writeTls E e.room with
  | none => d.fail
  | some (b, c) => { d with client := c, toServer := d.toServer ++ b }

/-- crates/tlsn/src/prover.rs:473-483: from the pipe to the socket. -/
def ProxyDriver.giveSocket (e : Ready) (d : ProxyDriver σ) : ProxyDriver σ :=
  match e.socketWrite with
  | .takes n => { d with toServer := d.toServer.drop n, socketOut := d.socketOut ++ d.toServer.take n }
  | .failed => d.fail
  | _ => d

/-- crates/tlsn/src/prover.rs:485-504: from the client to the application. -/
def ProxyDriver.giveApp (E : Engine σ) (e : Ready) (d : ProxyDriver σ) : ProxyDriver σ :=
  match e.appSink with
  | .takes room =>
    if d.client.wantsRead then
      match d.client.read E room with
      | none => d.fail
      | some (b, c) => { d with client := c, appOut := d.appOut ++ b }
    else d
  | .failed => d.fail
  | _ => d

/-- crates/tlsn/src/prover.rs:309-316. -/
def ProxyDriver.close (e : Ready) (d : ProxyDriver σ) : ProxyDriver σ :=
  if d.serverClosed && d.output.isSome then
    match e.closeApp with
    | none => d
    | some false => d.fail
    | some true =>
      match e.closeSocket with
      | none => d
      | some false => d.fail
      | some true => { d with status := .closed }
  else d

/-- What follows unless polling has ended. -/
def ProxyDriver.andThen (d : ProxyDriver σ) (f : ProxyDriver σ → ProxyDriver σ) : ProxyDriver σ :=
  if d.status = .running then f d else d

/-- crates/tlsn/src/prover.rs:296-317 `poll`, with crates/tlsn/src/prover.rs:399-454 `io_to_tls_client` and crates/tlsn/src/prover.rs:456-507 `io_from_tls_client`. -/
def ProxyDriver.poll (E : Engine σ) (fin : Bytes → Nat → TlsBytes → Bool) (e : Ready) (d : ProxyDriver σ) : ProxyDriver σ :=
  (((((((d.andThen (·.takeApp E e)).andThen (·.takeSocket e)).andThen (·.takeServer E e)).andThen (·.pollClient E fin e)).andThen
    (·.giveServer E e)).andThen (·.giveSocket e)).andThen (·.giveApp E e)).andThen (·.close e)

/-- What happens: the prover is polled or the application uses its connection. -/
inductive ProxyAct where
  | poll (e : Ready)
  | appWrite (b : Bytes)
  | appClose
  | appRead (n : Nat)

/-- One of these. -/
def ProxyDriver.step (E : Engine σ) (fin : Bytes → Nat → TlsBytes → Bool) (d : ProxyDriver σ) : ProxyAct → ProxyDriver σ
  | .poll e => d.poll E fin e
  | .appWrite b => if d.appClosed then d else { d with appIn := d.appIn ++ b, appWrote := d.appWrote ++ b }
  | .appClose => { d with appClosed := true }
  | .appRead n => { d with appOut := d.appOut.drop n, appRead := d.appRead ++ d.appOut.take n }

/-- A whole history, from crates/tlsn/src/prover.rs:232-284 `connect`, for a connection in the state `conn`. -/
def ProxyDriver.run (E : Engine σ) (fin : Bytes → Nat → TlsBytes → Bool) (conn : σ) (acts : List ProxyAct) : ProxyDriver σ :=
  acts.foldl (ProxyDriver.step E fin) { client := { conn } }

end Tlsn.Proxy
