import Verif.Client.Handshake
import Verif.Sdk.Machine

/-! # The client connection: crates/mpc-tls/src/client/conn.rs -/

namespace Tlsn.Client

/-- crates/mpc-tls/src/client/conn.rs:77-82 `ClientConnection` without its state. -/
structure Io where
  deframer : Deframer
  joiner : Joiner HandshakeMessage
  common : Common

/-- A function of the `CommonState`. -/
def lift {α : Type} (f : M Common α) : M Io α := fun io => ({ io with common := (f io.common).1 }, (f io.common).2)

/-- crates/mpc-tls/src/client/conn.rs:77-82 `ClientConnection`. -/
structure Conn where
  state : Except CErr HState
  io : Io

/-- crates/tls-core/src/msgs/message.rs:207-214 `is_handshake_type`, for `HelloRequest`. -/
def isHelloRequest : MessagePayload → Bool
  | .handshake m => m.typ == 0
  | _ => false

/-- crates/mpc-tls/src/client/conn.rs:431-436: the arm of `process_main_protocol` for messages that are out of place. -/
def rejecting (W : World) (f : M Common HState) : M Common HState := fun c =>
  match f c with
  | (c, .err (.inappropriate got)) => abort W 0x0a (.inappropriate got) c
  | (c, .err (.inappropriateHs got)) => abort W 0x0a (.inappropriateHs got) c
  | r => r

/-- crates/mpc-tls/src/client/conn.rs:410-439 `process_main_protocol`. -/
def processMain (cfg : ClientCfg) (W : World) (m : MessagePayload) (s : HState) : M Common HState := do
  let c ← M.get
  if c.mayReceive && isHelloRequest m then do
    sendWarning W 0x64
    pure s
  else do
    note (.handle m)
    rejecting W (handle cfg W s m)

/-- The loop of crates/mpc-tls/src/client/conn.rs:275-277; `ms` are the messages in the joiner. -/
def joinLoop (cfg : ClientCfg) (W : World) : List HandshakeMessage → HState → M Io HState
  | [], s => pure s
  | m :: ms, s => do
    M.modify fun io => { io with joiner := { io.joiner with frames := ms } }
    let s ← lift (processMain cfg W (.handshake m) s)
    joinLoop cfg W ms s

/-- crates/mpc-tls/src/client/conn.rs:173-187: the part of `process_incoming_plain` for handshake records, with 270-280 `process_new_handshake_messages`. -/
def processHs (cfg : ClientCfg) (W : World) (msg : OpaqueMessage) (s : HState) : M Io HState := fun io =>
  match io.joiner.takeMessage (parseHandshake cfg.dnsOk) msg with
  | (j, none) => lift (abort W 0x32 (.corruptPayload .handshake)) { io with joiner := j }
  | (j, some _) =>
    joinLoop cfg W j.frames s { io with joiner := j, common := { io.common with aligned := j.buf.isEmpty } }

/-- crates/mpc-tls/src/client/conn.rs:168-198 `process_incoming_plain`. -/
def processPlain (cfg : ClientCfg) (W : World) (msg : OpaqueMessage) (s : HState) : M Io HState :=
  if msg.typ = .handshake then processHs cfg W msg s
  else
    match MessagePayload.new cfg.dnsOk msg.typ msg.version msg.payload with
    | none => M.fail (.coreCorrupt msg.typ)
    | some (.alert level description) => do
      lift (processAlert W level description)
      pure s
    | some m => lift (processMain cfg W m s)

/-- crates/mpc-tls/src/client/conn.rs:239-245, 252-258: an error of `process_incoming_plain` is kept. -/
def catching {α : Type} (f : M Io α) : M Io (Except CErr α) := fun io =>
  match f io with
  | (io, .ok a) => (io, .ok (.ok a))
  | (io, .err e) => (io, .ok (.error e))
  | (io, .dropped) => (io, .dropped)
  | (io, .panicked) => (io, .panicked)

/-- The loop of crates/mpc-tls/src/client/conn.rs:235-247, with 130-166 `process_incoming_opaque`; the list holds the frames in the deframer. -/
def frameLoop (cfg : ClientCfg) (W : World) : List OpaqueMessage → HState → M Io (Except CErr HState)
  | [], s => pure (.ok s)
  | msg :: rest, s => do
    M.modify fun io => { io with deframer := { io.deframer with frames := rest } }
    let io ← M.get
    if io.common.decrypting then do
      lift (ask (W.pushIn · msg) (.pushIn msg))
      frameLoop cfg W rest s
    else do
      lift (note (.plain msg))
      match ← catching (processPlain cfg W msg s) with
      | .error e => pure (.error e)
      | .ok s => frameLoop cfg W rest s

/-- The loop of crates/mpc-tls/src/client/conn.rs:251-259.  If the backend never runs out of messages, the loop does not end: the function is left as if it
were dropped after `n` messages. -/
def drainIn (cfg : ClientCfg) (W : World) : Nat → HState → M Io (Except CErr HState)
  | 0, _ => fun io => (io, .dropped)
  | n + 1, s => do
    match ← lift (ask W.nextIn .nextIn) with
    | none => pure (.ok s)
    | some msg =>
      match ← catching (processPlain cfg W msg s) with
      | .error e => pure (.error e)
      | .ok s => drainIn cfg W n s

/-- The loop of crates/mpc-tls/src/client/conn.rs:261-263, bounded as `drainIn`. -/
def drainOut (W : World) : Nat → M Common Unit
  | 0 => fun c => (c, .dropped)
  | n + 1 => do
    match ← ask W.nextOut .nextOut with
    | none => pure ()
    | some msg => do
      queueTls msg
      drainOut W n

/-- crates/mpc-tls/src/client/conn.rs:227-263. -/
def processBody (cfg : ClientCfg) (W : World) (n : Nat) (s : HState) : M Io (Except CErr HState) := do
  let io ← M.get
  if io.deframer.desynced then M.fail .corruptMessage
  else do
    lift (flushPlaintext W)
    match ← frameLoop cfg W io.deframer.frames s with
    | .error e => pure (.error e)
    | .ok s => do
      lift (ask W.flush .flush)
      match ← drainIn cfg W n s with
      | .error e => pure (.error e)
      | .ok s => do
        lift (drainOut W n)
        pure (.ok s)

/-- The functions of the connection that a caller uses. -/
inductive Call where
  /-- crates/mpc-tls/src/client/conn.rs:112-122 `start`. -/
  | start
  /-- crates/mpc-tls/src/client/conn.rs:309-311 `read_tls`; `avail` is what the reader has. -/
  | readTls (avail : Bytes)
  /-- crates/mpc-tls/src/client/conn.rs:218-268 `process_new_packets`; `n` is the bound of `drainIn`. -/
  | process (n : Nat)
  /-- crates/mpc-tls/src/client/conn.rs:284-292 `write_plaintext`. -/
  | writePlaintext (buf : Bytes)
  /-- crates/mpc-tls/src/client/conn.rs:102-104 `read_plaintext`; `room` is the length of the caller's buffer. -/
  | readPlaintext (room : Nat)
  /-- crates/mpc-tls/src/client/conn.rs:532-534 `write_tls`; `accept` is how many bytes the writer takes. -/
  | writeTls (accept : Nat)
  /-- crates/mpc-tls/src/client/conn.rs:629-633 `send_close_notify`. -/
  | sendCloseNotify
  /-- crates/mpc-tls/src/client/conn.rs:125-128 `server_closed`. -/
  | serverClosed
  /-- crates/mpc-tls/src/client/conn.rs:662-664 `enable_decryption`. -/
  | enableDecryption (b : Bool)

/-- What a function returns. -/
inductive CReply where
  | ok
  | count (n : Nat)
  | data (bytes : Bytes)
  /-- crates/mpc-tls/src/client/conn.rs:31-34 `IoState`. -/
  | io (toWrite toRead : Nat)
  | err (e : CErr)
  | dropped
  | panicked
  deriving DecidableEq, Repr

/-- A function of the `CommonState` that returns nothing. -/
def replyOf : Res Unit → CReply
  | .ok () => .ok
  | .err e => .err e
  | .dropped => .dropped
  | .panicked => .panicked

/-- crates/mpc-tls/src/client/conn.rs:112-122 `start`. -/
def callStart (cfg : ClientCfg) (W : World) (c : Conn) : Conn × CReply :=
  match c.state with
  | .error e => (c, .err e)
  | .ok .initial =>
    match startHandshake cfg W c.io.common with
    | (common, .ok s) => (⟨.ok s, { c.io with common }⟩, .ok)
    | (common, .err e) => (⟨.error e, { c.io with common }⟩, .ok)
    | (common, .dropped) => (⟨.error .handshakeNotComplete, { c.io with common }⟩, .dropped)
    | (common, .panicked) => (⟨.error .handshakeNotComplete, { c.io with common }⟩, .panicked)
  | .ok _ => (⟨.error .handshakeNotComplete, c.io⟩, .panicked)

/-- crates/mpc-tls/src/client/conn.rs:218-268 `process_new_packets`. -/
def callProcess (cfg : ClientCfg) (W : World) (n : Nat) (c : Conn) : Conn × CReply :=
  match c.state with
  | .error e => (c, .err e)
  | .ok s =>
    match processBody cfg W n s c.io with
    | (io, .ok (.ok s)) => (⟨.ok s, io⟩, .io io.common.sendableTls.len io.common.received.len)
    | (io, .ok (.error e)) => (⟨.error e, io⟩, .err e)
    | (io, .err e) => (⟨.error .handshakeNotComplete, io⟩, .err e)
    | (io, .dropped) => (⟨.error .handshakeNotComplete, io⟩, .dropped)
    | (io, .panicked) => (⟨.error .handshakeNotComplete, io⟩, .panicked)

/-- crates/mpc-tls/src/client/conn.rs:284-292 `write_plaintext`. -/
def callWrite (buf : Bytes) (c : Conn) : Conn × CReply :=
  if buf.isEmpty then (c, .count 0)
  else
    let r := c.io.common.sendable.appendLimited buf
    ({ c with io := { c.io with common := { c.io.common with sendable := r.1 } } }, .count r.2)

/-- A call.  In `read_tls` and `write_tls` errors of the reader and the writer are left out. -/
def Conn.step (cfg : ClientCfg) (W : World) (c : Conn) : Call → Conn × CReply
  | .start => callStart cfg W c
  | .readTls avail =>
    let r := c.io.deframer.read avail
    ({ c with io := { c.io with deframer := r.1 } }, .count r.2)
  | .process n => callProcess cfg W n c
  | .writePlaintext buf => callWrite buf c
  | .readPlaintext room =>
    let r := c.io.common.received.read room
    ({ c with io := { c.io with common := { c.io.common with received := r.1 } } }, .data r.2)
  | .writeTls accept =>
    let r := c.io.common.sendableTls.writeTo accept
    ({ c with io := { c.io with common := { c.io.common with sendableTls := r.1 } } }, .data r.2)
  | .sendCloseNotify =>
    let r := sendWarning W 0 c.io.common
    ({ c with io := { c.io with common := r.1 } }, replyOf r.2)
  | .serverClosed =>
    let r := ask W.close .close .backend c.io.common
    ({ c with io := { c.io with common := r.1 } }, replyOf r.2)
  | .enableDecryption b => ({ c with io := { c.io with common := (note (.enable b) c.io.common).1 } }, .ok)

/-- crates/mpc-tls/src/client/config.rs:184-196 `ClientConnection::new`, crates/mpc-tls/src/client/conn.rs:91-98 `new_inner`. -/
def Conn.new (cfg : ClientCfg) : Except CErr Conn :=
  match Common.new cfg.maxFragmentSize with
  | .error e => .error e
  | .ok common => .ok ⟨.ok .initial, ⟨Deframer.new, ⟨[], []⟩, common⟩⟩

/-- Calls made one after the other; the second component lists them with what they returned. -/
def Conn.run (cfg : ClientCfg) (W : World) (c : Conn) (calls : List Call) : Conn × List (Call × CReply) :=
  Sdk.runCalls (Conn.step cfg W) c calls

/-- crates/mpc-tls/src/client/conn.rs:402-404 `is_handshaking`. -/
def Conn.isHandshaking (c : Conn) : Bool := !(c.io.common.maySend && c.io.common.mayReceive)

/-- crates/mpc-tls/src/client/conn.rs:380-382 `wants_write`. -/
def Conn.wantsWrite (c : Conn) : Bool := !c.io.common.sendableTls.isEmpty

/-- crates/mpc-tls/src/client/conn.rs:647-659 `wants_read`. -/
def Conn.wantsRead (c : Conn) : Bool :=
  c.io.common.received.isEmpty && !c.io.common.closeNotify && (c.io.common.maySend || c.io.common.sendableTls.isEmpty)

end Tlsn.Client
