import Verif.Tls.HandshakeHash
import Verif.Tls.VecBuf
import Verif.Tls.Frame

/-!
# The TLS client: what surrounds it, and its connection state

Model of crates/mpc-tls/src/client/{conn,config,error}.rs.  The client talks to a backend, `MpcTlsLeader`.  Here the backend is
any function from the history of the connection to replies, so that the theorems hold whatever the backend does.  A reply may
also be that the future is dropped while it waits, or that the backend panics.

TLS 1.3 is left out: crates/tls-core/src/versions.rs:28-32 enables only TLS 1.2, so `supports_version(TLSv1_3)`
(crates/mpc-tls/src/client/config.rs:144-150) is false and `negotiated_version` is never TLS 1.3.
-/

namespace Tlsn.Client

/-- crates/mpc-tls/src/client/error.rs:10-71 `Error`, without the lists of expected types. -/
inductive CErr where
  | core (code : Nat)
  | backend (code : Nat)
  | inappropriate (got : ContentType)
  | inappropriateHs (got : UInt8)
  | decryptError
  | corruptMessage
  | corruptPayload (typ : ContentType)
  /-- `CoreError` of `CorruptMessagePayload`. -/
  | coreCorrupt (typ : ContentType)
  | noCertificates
  | incompatible (why : String)
  | misbehaved (why : String)
  | alertReceived (description : UInt8)
  | general (why : String)
  | handshakeNotComplete
  | badMaxFragmentSize
  deriving DecidableEq, Repr

/-- A reply from outside. -/
inductive Reply (α : Type) where
  | ok (a : α)
  | failed (code : Nat)
  | dropped
  | panicked
  deriving DecidableEq, Repr

/-- crates/mpc-tls/src/leader.rs:765-777 `HandshakeData`, with the fields of crates/tls-core/src/cert.rs:8-12 `ServerCertDetails`
and crates/tls-core/src/ke.rs:5-8 `ServerKxDetails`. -/
structure HandshakeData where
  random : Bytes
  key : KeyShareEntry
  chain : List Bytes
  ocsp : Bytes
  scts : Option (List Bytes)
  kxParams : Bytes
  sig : DigitallySigned
  deriving DecidableEq, Repr

/-- What happens on a connection, as seen from the client: calls out of it with their replies, messages that it sends, and messages
that it handles.  The list of these is a ghost: the code does not keep it. -/
inductive Ev where
  /-- `SessionID::random`, crates/mpc-tls/src/client/hs.rs:48. -/
  | sessionId (r : Reply Bytes)
  /-- `client_random`, crates/mpc-tls/src/client/hs.rs:57. -/
  | random (r : Reply Bytes)
  /-- `client_key_share`, crates/mpc-tls/src/client/tls12.rs:660. -/
  | keyShare (r : Reply KeyShareEntry)
  /-- The clock, crates/mpc-tls/src/client/tls12.rs:588. -/
  | now (t : Nat)
  /-- The client's signing key, crates/mpc-tls/src/client/tls12.rs:375. -/
  | sign (scheme : UInt16) (message : Bytes) (r : Reply Bytes)
  | prepare (hs : HandshakeData) (r : Reply Unit)
  | clientVd (hash : Bytes) (r : Reply Bytes)
  | serverVd (hash : Bytes) (r : Reply Bytes)
  | startTraffic (r : Reply Unit)
  | pushIn (m : OpaqueMessage) (r : Reply Unit)
  | pushOut (m : OpaqueMessage) (r : Reply Unit)
  | flush (r : Reply Unit)
  | nextIn (r : Reply (Option OpaqueMessage))
  | nextOut (r : Reply (Option OpaqueMessage))
  | close (r : Reply Unit)
  | enable (b : Bool)
  /-- A message is given to the record layer to be sent unencrypted. -/
  | clear (m : MessagePayload)
  /-- A message other than application data is given to the backend to be sent. -/
  | protect (m : MessagePayload)
  /-- A record that arrived unencrypted is processed. -/
  | plain (m : OpaqueMessage)
  /-- A message is handled by the state machine. -/
  | handle (m : MessagePayload)
  /-- Application data becomes available to the caller. -/
  | deliver (p : Bytes)
  deriving DecidableEq, Repr

/-- crates/mpc-tls/src/client/config.rs:61-93 `ClientConfig` with the server name.  The certificate verifier (crates/tls-core/src/verify.rs:62-148), the
resolver of client certificates (crates/mpc-tls/src/client/config.rs:27-45) and the hash function of the cipher suites (SHA-256, both of them) are
parameters.  `resolve` gives the certificates and the signature scheme that crates/mpc-tls/src/client/hs.rs:650-659 chooses. -/
structure ClientCfg where
  serverName : Bytes
  /-- The name in the SNI extension, if the server name is a DNS name (crates/tls-core/src/dns.rs:35-40), without a trailing dot
  (crates/tls-core/src/msgs/handshake.rs:700-713). -/
  sni : Option Bytes
  enableSni : Bool
  alpn : List Bytes
  maxFragmentSize : Option Nat
  requestScts : Bool
  verifySchemes : List UInt16
  verifyCert : (leaf : Bytes) → (intermediates : List Bytes) → (name : Bytes) → (scts : List Bytes) → (ocsp : Bytes) →
    (now : Nat) → Except Nat Unit
  verifySig : (message : Bytes) → (cert : Bytes) → DigitallySigned → Except Nat Unit
  hasClientCerts : Bool
  resolve : (caNames : List Bytes) → (schemes : List UInt16) → Option (List Bytes × UInt16)
  hash : Bytes → Bytes
  dnsOk : Bytes → Bool

/-- What is outside: each reply depends on all that has happened before. -/
structure World where
  sessionId : List Ev → Reply Bytes
  random : List Ev → Reply Bytes
  keyShare : List Ev → Reply KeyShareEntry
  now : List Ev → Nat
  sign : List Ev → UInt16 → Bytes → Reply Bytes
  prepare : List Ev → HandshakeData → Reply Unit
  clientVd : List Ev → Bytes → Reply Bytes
  serverVd : List Ev → Bytes → Reply Bytes
  startTraffic : List Ev → Reply Unit
  pushIn : List Ev → OpaqueMessage → Reply Unit
  pushOut : List Ev → OpaqueMessage → Reply Unit
  flush : List Ev → Reply Unit
  nextIn : List Ev → Reply (Option OpaqueMessage)
  nextOut : List Ev → Reply (Option OpaqueMessage)
  close : List Ev → Reply Unit

/-- crates/mpc-tls/src/client/conn.rs:329-350 `CommonState`, without the fields that only TLS 1.3 uses.  `log` is a ghost. -/
structure Common where
  negotiated : Option ProtocolVersion
  encrypting : Bool
  decrypting : Bool
  suite : Option UInt16
  alpnProtocol : Option Bytes
  aligned : Bool
  maySend : Bool
  mayReceive : Bool
  sentFatalAlert : Bool
  closeNotify : Bool
  fragmenter : Fragmenter
  received : VecBuf
  sendable : VecBuf
  sendableTls : VecBuf
  log : List Ev

/-- crates/mpc-tls/src/client/conn.rs:697 `DEFAULT_BUFFER_LIMIT`. -/
def defaultBufferLimit : Nat := 64 * 1024

/-- crates/mpc-tls/src/client/conn.rs:353-376 `new`. -/
def Common.new (maxFragmentSize : Option Nat) : Except CErr Common :=
  match Fragmenter.new maxFragmentSize with
  | none => .error .badMaxFragmentSize
  | some fragmenter => .ok {
      negotiated := none, encrypting := false, decrypting := false, suite := none, alpnProtocol := none, aligned := true
      maySend := false, mayReceive := false, sentFatalAlert := false, closeNotify := false, fragmenter
      received := VecBuf.new (some 0), sendable := VecBuf.new (some defaultBufferLimit)
      sendableTls := VecBuf.new (some defaultBufferLimit), log := [] }

/-- The result of an asynchronous function: it returns, fails, is dropped before it returns, or panics. -/
inductive Res (α : Type) where
  | ok (a : α)
  | err (e : CErr)
  | dropped
  | panicked
  deriving DecidableEq, Repr

/-- An asynchronous function with access to a state. -/
def M (σ α : Type) : Type := σ → σ × Res α

/-- `await?`. -/
def M.bind {σ α β : Type} (f : M σ α) (g : α → M σ β) : M σ β := fun s =>
  match f s with
  | (s, .ok a) => g a s
  | (s, .err e) => (s, .err e)
  | (s, .dropped) => (s, .dropped)
  | (s, .panicked) => (s, .panicked)

instance {σ : Type} : Monad (M σ) where
  pure a := fun s => (s, .ok a)
  bind := M.bind

/-- The state. -/
def M.get {σ : Type} : M σ σ := fun s => (s, .ok s)

/-- Changes the state. -/
def M.modify {σ : Type} (f : σ → σ) : M σ Unit := fun s => (f s, .ok ())

/-- `return Err(e)`. -/
def M.fail {σ α : Type} (e : CErr) : M σ α := fun s => (s, .err e)

/-- Any panic. -/
def M.panic {σ α : Type} : M σ α := fun s => (s, .panicked)

/-- Notes an event. -/
def note (e : Ev) : M Common Unit := M.modify fun c => { c with log := c.log ++ [e] }

/-- A call to the outside, whose errors become `Error::BackendError` (crates/mpc-tls/src/client/error.rs:131-136) unless `toErr` says otherwise. -/
def ask {α : Type} (r : List Ev → Reply α) (ev : Reply α → Ev) (toErr : Nat → CErr := .backend) : M Common α := fun c =>
  let reply := r c.log
  let c := { c with log := c.log ++ [ev reply] }
  match reply with
  | .ok a => (c, .ok a)
  | .failed code => (c, .err (toErr code))
  | .dropped => (c, .dropped)
  | .panicked => (c, .panicked)

/-- crates/mpc-tls/src/client/conn.rs:561-563 `queue_tls_message`. -/
def queueTls (m : OpaqueMessage) : M Common Unit :=
  M.modify fun c => { c with sendableTls := (c.sendableTls.append m.encode).1 }

/-- crates/mpc-tls/src/client/conn.rs:517-522 `send_single_fragment`, for each of the fragments. -/
def pushAll (W : World) : List OpaqueMessage → M Common Unit
  | [] => pure ()
  | m :: ms => do
    ask (W.pushOut · m) (.pushOut m)
    pushAll W ms

/-- The loop of crates/mpc-tls/src/client/conn.rs:570-572. -/
def queueAll : List OpaqueMessage → M Common Unit
  | [] => pure ()
  | m :: ms => do
    queueTls m
    queueAll ms

/-- crates/tls-core/src/msgs/message.rs:150-168 `From<Message> for PlainMessage`. -/
def plainOf (version : ProtocolVersion) (m : MessagePayload) : OpaqueMessage := ⟨m.contentType, version, m.encode⟩

/-- crates/mpc-tls/src/client/conn.rs:566-577 `send_msg`, with 488-496 `send_msg_encrypt`. -/
def sendMsg (W : World) (version : ProtocolVersion) (m : MessagePayload) (mustEncrypt : Bool) : M Common Unit := do
  let c ← M.get
  let fragments := c.fragmenter.fragment (plainOf version m)
  if mustEncrypt then do
    note (.protect m)
    pushAll W fragments
  else do
    note (.clear m)
    queueAll fragments

/-- crates/mpc-tls/src/client/conn.rs:617-624 `send_fatal_alert`.  The `debug_assert!` is left out. -/
def sendFatal (W : World) (description : UInt8) : M Common Unit := do
  let c ← M.get
  sendMsg W .tls12 (.alert 2 description) c.encrypting
  M.modify fun c => { c with sentFatalAlert := true }

/-- crates/mpc-tls/src/client/conn.rs:583-586, 629-638 `send_warning_alert`, `send_close_notify`. -/
def sendWarning (W : World) (description : UInt8) : M Common Unit := do
  let c ← M.get
  sendMsg W .tls12 (.alert 1 description) c.encrypting

/-- A fatal alert, then `return Err(e)`. -/
def abort {α : Type} (W : World) (description : UInt8) (e : CErr) : M Common α := do
  sendFatal W description
  M.fail e

/-- crates/mpc-tls/src/client/conn.rs:457-461 `illegal_param`, as it is used: `return Err(cx.illegal_param(why).await?)`. -/
def illegalParam {α : Type} (W : World) (why : String) : M Common α := abort W 0x2f (.misbehaved why)

/-- crates/mpc-tls/src/client/conn.rs:445-455 `check_aligned_handshake`. -/
def checkAligned (W : World) : M Common Unit := do
  let c ← M.get
  if c.aligned then pure ()
  else abort W 0x0a (.misbehaved "key epoch or handshake flight with pending fragment")

/-- crates/mpc-tls/src/client/conn.rs:499-515 `send_appdata_encrypt`. -/
def sendAppData (W : World) (payload : Bytes) : M Common Unit := do
  let c ← M.get
  pushAll W (c.fragmenter.fragment ⟨.applicationData, .tls12, payload⟩)

/-- The loop of crates/mpc-tls/src/client/conn.rs:553-555; each iteration removes a chunk. -/
def flushLoop (W : World) : Nat → M Common Unit
  | 0 => pure ()
  | n + 1 => do
    let c ← M.get
    match c.sendable.pop with
    | (_, none) => pure ()
    | (sendable, some buf) => do
      M.modify fun c => { c with sendable }
      sendAppData W buf
      flushLoop W n

/-- crates/mpc-tls/src/client/conn.rs:548-558 `flush_plaintext`. -/
def flushPlaintext (W : World) : M Common Unit := do
  let c ← M.get
  if c.maySend then flushLoop W (c.sendable.chunks.length + 1) else pure ()

/-- crates/mpc-tls/src/client/conn.rs:536-545 `start_outgoing_traffic`, `start_traffic`. -/
def startTraffic (W : World) : M Common Unit := do
  M.modify fun c => { c with mayReceive := true }
  ask W.startTraffic .startTraffic
  M.modify fun c => { c with maySend := true }
  flushPlaintext W

/-- crates/mpc-tls/src/client/conn.rs:588-615 `process_alert`.  Levels: 1 is a warning, 2 is fatal, others are unknown. -/
def processAlert (W : World) (level description : UInt8) : M Common Unit := do
  if level ≠ 1 ∧ level ≠ 2 then sendFatal W 0x2f else pure ()
  if description = 0 then M.modify fun c => { c with closeNotify := true }
  else if level = 1 then pure ()
  else M.fail (.alertReceived description)

/-- crates/mpc-tls/src/client/conn.rs:579-581 `take_received_plaintext`. -/
def takePlaintext (p : Bytes) : M Common Unit := do
  note (.deliver p)
  M.modify fun c => { c with received := (c.received.append p).1 }

end Tlsn.Client
