import Verif.Session.Model

/-!
# Model of crates/mpc-tls/src/leader.rs

A call on the leader takes a state and gives the new state, the messages that were sent to the follower and the result.  After a
panic nothing more happens; here the state is then `error`.
-/

namespace Tlsn.Mpc

open Hmac (Vm)
open Kex (Point)

/-- crates/mpc-tls/src/leader.rs:765-777 `HandshakeData`: the random, the key, the certificates, the parameters of the key exchange, and the scheme and
the bytes of their signature. -/
structure HsData where
  random : Vector Byte 32
  key : PubKey
  chain : List Bytes
  kxParams : Bytes
  scheme : UInt16
  sig : Bytes

/-- crates/mpc-tls/src/leader.rs:804-813, the active state. -/
structure Active where
  core : Core
  clientRandom : Vector Byte 32
  cf : Option Bytes
  sf : Option Bytes
  time : Nat
  hs : HsData

/-- crates/mpc-tls/src/leader.rs:788-820 `State`.  In `init` there are the private key of the key exchange and the virtual machine. -/
inductive LState where
  | init (sk : Nat) (vm : Vm)
  | setup (core : Core) (clientRandom : Vector Byte 32)
  | ready (core : Core) (clientRandom : Vector Byte 32)
  | active (a : Active)
  | closed (rl : RecordLayer) (t : TlsTranscript)
  | error

/-- crates/mpc-tls/src/leader.rs:46-52 `MpcTlsLeader`. -/
structure Leader where
  state : LState
  isDecrypting : Bool

/-- crates/mpc-tls/src/leader.rs:54-113 `new`. -/
def Leader.new (sk : Nat) (vm : Vm) (deferDecryption : Bool) : Leader := ⟨.init sk vm, !deferDecryption⟩

/-- crates/tls-core/src/msgs/message.rs:175-179 `PlainMessage`. -/
structure PlainMsg where
  typ : ContentType
  version : ProtocolVersion
  payload : Bytes
  deriving DecidableEq, Repr

/-- The calls, crates/mpc-tls/src/leader.rs:116-762.  `alloc` draws the client random (121) and the one-time pad of the record layer
(crates/mpc-tls/src/record_layer.rs:139-193); `preprocess` receives the follower's key. -/
inductive LCall where
  | alloc (random : Vector Byte 32) (otp : Bytes)
  | preprocess (peerKey : Option Point)
  | clientRandom
  | clientKeyShare
  | prepareEncryption (hs : HsData)
  | clientFinishedVd (hash : Bytes)
  | serverFinishedVd (hash : Bytes)
  | pushIncoming (msg : OpaqueMessage)
  | nextIncoming
  | pushOutgoing (msg : PlainMsg)
  | nextOutgoing
  | startTraffic
  | flush
  | isEmpty
  | closeConnection
  | enableDecryption (enable : Bool)
  | finish

/-- The results of the calls. -/
inductive LResult where
  | done
  | failed (e : Err)
  | panicked
  | random (r : Vector Byte 32)
  | keyShare (p : Point)
  | vd (v : Bytes)
  | incoming (m : Option PlainMsg)
  | outgoing (m : Option OpaqueMessage)
  | flag (b : Bool)
  | finished (t : Option TlsTranscript)

/-- The result of a call that gives nothing. -/
def LResult.of {α : Type} : Outcome Err α → LResult
  | .ok _ => .done
  | .err e => .failed e
  | .panic => .panicked

/-- `try_into` to an array of 32 bytes. -/
def toArray32 (b : Bytes) : Option (Vector Byte 32) := if h : b.length = 32 then some ⟨b.toArray, by simpa using h⟩ else none

/-- The state that crates/mpc-tls/src/leader.rs:384-390 leaves, also if it fails.  If `flush_prf` fails, what it has done is left out. -/
def Core.afterClientVd (D : Deps) (c : Core) (hash : Vector Byte 32) : Core :=
  match c.prf.setCfHash hash.toList with
  | .ok prf =>
    match ({ c with prf } : Core).flushPrf D with
    | .ok c => c
    | _ => { c with prf }
  | _ => c

/-- The state that crates/mpc-tls/src/leader.rs:429-435 leaves, also if it fails.  If `flush_prf` fails, what it has done is left out. -/
def Core.afterServerVd (D : Deps) (c : Core) (hash : Vector Byte 32) : Core :=
  match c.prf.setSfHash hash.toList with
  | .ok prf =>
    match ({ c with prf } : Core).flushPrf D with
    | .ok c => c
    | _ => { c with prf }
  | _ => c

/-- `record_layer.flush` on a leader, who is only active after the AEADs were set up, crates/mpc-tls/src/leader.rs:642-644. -/
def Core.flushActive (D : Deps) (c : Core) (w : World) (isDecrypting : Bool) : Core × Outcome Err Unit :=
  match c.fns D with
  | none => (c, .err .recordLayer)
  | some k =>
    match c.rl.flush k D.peerData ⟨true, w.mpcOk⟩ isDecrypting with
    | (rl, .ok ()) => ({ c with rl }, .ok ())
    | (rl, .error _) => ({ c with rl }, .err .recordLayer)

/-- crates/mpc-tls/src/leader.rs:686-737: from the commitment to the records to the check of the transcript. -/
def Active.close (D : Deps) (a : Active) (w : World) : Outcome Err (RecordLayer × TlsTranscript) :=
  a.core.commit D w >>= fun r =>
  match a.cf, a.sf with
  | some cf, some sf =>
    match a.hs.chain.head? with
    | none => .panic
    | some cert =>
      match D.sigAlg cert (a.clientRandom.toList ++ a.hs.random.toList ++ a.hs.kxParams) a.hs.scheme a.hs.sig with
      | none => .panic
      | some alg =>
        ephemKey a.hs.key >>= fun key =>
        buildTranscript D {
          time := some a.time
          version := some .v12
          serverSignature := some ⟨alg, a.hs.sig⟩
          serverCertChain := some a.hs.chain
          certificateBinding := some ⟨a.clientRandom, a.hs.random, key⟩
          recordsSent := some r.2.1
          recordsRecv := some r.2.2 } >>= fun t =>
        verifyTranscript t cf sf >>= fun _ => .ok (r.1.rl, t)
  | _, _ => .err .state

/-- The record layer of a state that has one which can be read, crates/mpc-tls/src/leader.rs:487-495 and 564-572. -/
def LState.layer : LState → Option RecordLayer
  | .ready c _ => some c.rl
  | .active a => some a.core.rl
  | .closed rl _ => some rl
  | _ => none

/-- Puts the record layer back. -/
def LState.setLayer (rl : RecordLayer) : LState → LState
  | .ready c r => .ready { c with rl } r
  | .active a => .active { a with core := { a.core with rl } }
  | .closed _ t => .closed rl t
  | s => s

/-- crates/mpc-tls/src/leader.rs:442-484 `push_incoming`, in the active state. -/
def Active.pushIncoming (a : Active) (w : World) (msg : OpaqueMessage) : Active × List Msg × LResult :=
  match opaqueIntoParts msg.payload with
  | .err e => (a, [], .failed e)
  | .panic => (a, [], .panicked)
  | .ok (nonce, ciphertext, tag) =>
    match a.core.rl.pushDecrypt msg.typ msg.version nonce ciphertext tag with
    | (rl, .error _) => ({ a with core := { a.core with rl } }, [], .failed .recordLayer)
    | (rl, .ok ()) =>
      if w.ioOk then ({ a with core := { a.core with rl } }, [.decrypt msg.typ msg.version nonce ciphertext tag], .done)
      else ({ a with core := { a.core with rl } }, [], .failed .io)

/-- crates/mpc-tls/src/leader.rs:518-561 `push_outgoing`, in the active state. -/
def Active.pushOutgoing (a : Active) (w : World) (msg : PlainMsg) : Active × List Msg × LResult :=
  let pub := if msg.typ = .applicationData then none else some msg.payload
  match a.core.rl.pushEncrypt msg.typ msg.version msg.payload.length (some msg.payload) with
  | (rl, .error _) => ({ a with core := { a.core with rl } }, [], .failed .recordLayer)
  | (rl, .ok ()) =>
    if w.ioOk then ({ a with core := { a.core with rl } }, [.encrypt msg.typ msg.version msg.payload.length pub], .done)
    else ({ a with core := { a.core with rl } }, [], .failed .io)

/-- crates/mpc-tls/src/leader.rs:352-395 `get_client_finished_vd`, in the active state. -/
def Active.clientFinishedVd (D : Deps) (a : Active) (w : World) (hash : Bytes) : Active × List Msg × LResult :=
  match toArray32 hash with
  | none => (a, [], .failed .hs)
  | some h =>
    if !w.ioOk then (a, [], .failed .io)
    else
      let a1 := { a with core := a.core.afterClientVd D h }
      match a.core.clientVd D h with
      | .ok (_, vd) => ({ a1 with cf := some vd }, [.clientFinishedVd h], .vd vd)
      | .err e => (a1, [.clientFinishedVd h], .failed e)
      | .panic => (a1, [.clientFinishedVd h], .panicked)

/-- crates/mpc-tls/src/leader.rs:397-440 `get_server_finished_vd`, in the active state. -/
def Active.serverFinishedVd (D : Deps) (a : Active) (w : World) (hash : Bytes) : Active × List Msg × LResult :=
  match toArray32 hash with
  | none => (a, [], .failed .hs)
  | some h =>
    if !w.ioOk then (a, [], .failed .io)
    else
      let a1 := { a with core := a.core.afterServerVd D h }
      match a.core.serverVd D h with
      | .ok (_, vd) => ({ a1 with sf := some vd }, [.serverFinishedVd h], .vd vd)
      | .err e => (a1, [.serverFinishedVd h], .failed e)
      | .panic => (a1, [.serverFinishedVd h], .panicked)

/-- crates/mpc-tls/src/leader.rs:596-608 `start_traffic`, in the active state. -/
def Active.startTraffic (a : Active) (w : World) : Active × List Msg × LResult :=
  let a := { a with core := { a.core with rl := { a.core.rl with started := true } } }
  if w.ioOk then (a, [.startTraffic], .done) else (a, [], .failed .io)

/-- crates/mpc-tls/src/record_layer.rs:270-275 `is_empty`. -/
def layerEmpty (rl : RecordLayer) : Bool :=
  rl.encryptBuffer.isEmpty && rl.decryptBuffer.isEmpty && rl.encryptedBuffer.isEmpty && rl.decryptedBuffer.isEmpty

/-- crates/mpc-tls/src/record_layer.rs:277-279 `wants_flush`. -/
def wantsFlush (rl : RecordLayer) : Bool := !rl.encryptBuffer.isEmpty || !rl.decryptBuffer.isEmpty

/-- crates/mpc-tls/src/leader.rs:610-645 `flush`, in the active state. -/
def Active.flush (D : Deps) (a : Active) (w : World) (isDecrypting : Bool) : Active × List Msg × LResult :=
  if !wantsFlush a.core.rl then (a, [], .done)
  else if !w.ioOk then (a, [], .failed .io)
  else
    let r := a.core.flushActive D w isDecrypting
    ({ a with core := r.1 }, [.flush isDecrypting], .of r.2)

/-- The state after a call: none after a panic. -/
def LState.unlessPanicked (s : LState) : LResult → LState
  | .panicked => .error
  | _ => s

/-- A call that needs the active state and stays in it, unless it panics. -/
def Leader.inActive (l : Leader) (f : Active → Active × List Msg × LResult) : Leader × List Msg × LResult :=
  match l.state with
  | .active a =>
    let r := f a
    ({ l with state := (LState.active r.1).unlessPanicked r.2.2 }, r.2)
  | _ => (l, [], .failed .state)

/-- crates/mpc-tls/src/leader.rs:116-146 `alloc`. -/
def Leader.alloc (D : Deps) (cfg : Limits) (l : Leader) (random : Vector Byte 32) (otp : Bytes) : Leader × List Msg × LResult :=
  match l.state with
  | .init sk vm =>
    let r := Core.alloc D cfg .leader sk otp vm
    ({ l with state := match r with | .ok c => .setup c random | _ => .error }, [], .of r)
  | _ => ({ l with state := .error }, [], .failed .state)

/-- crates/mpc-tls/src/leader.rs:148-229 `preprocess`. -/
def Leader.preprocess (l : Leader) (w : World) (peerKey : Option Point) : Leader × List Msg × LResult :=
  match l.state with
  | .setup c cr =>
    match c.preprocess peerKey with
    | .ok c =>
      if w.ioOk then
        ({ l with state := .ready { c with prf := c.prf.setClientRandom cr.toList } cr }, [.setClientRandom cr], .done)
      else ({ l with state := .error }, [], .failed .io)
    | r => ({ l with state := .error }, [], .of r)
  | _ => ({ l with state := .error }, [], .failed .state)

/-- crates/mpc-tls/src/leader.rs:265-350 `prepare_encryption`. -/
def Leader.prepareEncryption (D : Deps) (l : Leader) (w : World) (hs : HsData) : Leader × List Msg × LResult :=
  match l.state with
  | .ready c cr =>
    if hs.key.group ≠ .secp256r1 then ({ l with state := .error }, [], .failed .hs)
    else if !w.ioOk then ({ l with state := .error }, [], .failed .io)
    else
      let r := c.setServerRandom hs.random >>= fun c => c.exchange D w hs.key.key
      ({ l with state := match r with | .ok c => .active ⟨c, cr, none, none, w.now, hs⟩ | _ => .error },
        [.serverHello ⟨w.now, hs.random, hs.key⟩], .of r)
  | _ => ({ l with state := .error }, [], .failed .state)

/-- crates/mpc-tls/src/leader.rs:656-746 `close_connection`. -/
def Leader.closeConnection (D : Deps) (l : Leader) (w : World) : Leader × List Msg × LResult :=
  match l.state with
  | .active a =>
    if !w.ioOk then ({ l with state := .error }, [], .failed .io)
    else
      let r := a.close D w
      ({ l with state := match r with | .ok (rl, t) => .closed rl t | _ => .error }, [.closeConnection], .of r)
  | _ => ({ l with state := .error }, [], .failed .state)

/-- crates/mpc-tls/src/leader.rs:486-516 `next_incoming`. -/
def Leader.nextIncoming (l : Leader) : Leader × List Msg × LResult :=
  match l.state.layer with
  | none => (l, [], .failed .state)
  | some rl =>
    match rl.nextDecrypted with
    | (rl, none) => ({ l with state := l.state.setLayer rl }, [], .incoming none)
    | (rl, some r) =>
      match r.plaintext with
      | none => ({ l with state := .error }, [], .panicked)
      | some p => ({ l with state := l.state.setLayer rl }, [], .incoming (some ⟨r.typ, r.version, p⟩))

/-- crates/mpc-tls/src/leader.rs:563-594 `next_outgoing`. -/
def Leader.nextOutgoing (l : Leader) : Leader × List Msg × LResult :=
  match l.state.layer with
  | none => (l, [], .failed .state)
  | some rl =>
    match rl.nextEncrypted with
    | (rl, none) => ({ l with state := l.state.setLayer rl }, [], .outgoing none)
    | (rl, some r) =>
      match r.tag with
      | none => ({ l with state := .error }, [], .panicked)
      | some tag => ({ l with state := l.state.setLayer rl }, [], .outgoing (some ⟨r.typ, r.version, r.nonce ++ r.ciphertext ++ tag⟩))

/-- crates/mpc-tls/src/leader.rs:610-645 `flush`. -/
def Leader.flush (D : Deps) (l : Leader) (w : World) : Leader × List Msg × LResult :=
  match l.state with
  | .ready _ _ => (l, [], .done)
  | .closed _ _ => (l, [], .done)
  | _ => l.inActive (·.flush D w l.isDecrypting)

/-- crates/mpc-tls/src/leader.rs:647-654 `is_empty`. -/
def Leader.isEmpty (l : Leader) : Bool :=
  match l.state with
  | .active a => layerEmpty a.core.rl
  | .closed rl _ => layerEmpty rl
  | _ => true

/-- crates/mpc-tls/src/leader.rs:752-762 `finish`. -/
def Leader.finish (l : Leader) : Leader × Option TlsTranscript :=
  match l.state with
  | .closed _ t => ({ l with state := .error }, some t)
  | _ => (l, none)

/-- crates/mpc-tls/src/leader.rs:238-247 `client_random`. -/
def Leader.clientRandom (l : Leader) : LResult :=
  match l.state with
  | .ready _ cr => .random cr
  | _ => .failed .state

/-- crates/mpc-tls/src/leader.rs:249-263 `client_key_share`, without the encoding of the point. -/
def Leader.clientKeyShare (l : Leader) : LResult :=
  match l.state with
  | .ready c _ =>
    match c.ke.clientKey with
    | .ok p => .keyShare p
    | .err _ => .failed .hs
    | .panic => .panicked
  | _ => .failed .state

/-- Performs one call. -/
def Leader.step (D : Deps) (cfg : Limits) (l : Leader) (w : World) : LCall → Leader × List Msg × LResult
  | .alloc random otp => l.alloc D cfg random otp
  | .preprocess peerKey => l.preprocess w peerKey
  | .clientRandom => (l, [], l.clientRandom)
  | .clientKeyShare => (l, [], l.clientKeyShare)
  | .prepareEncryption hs => l.prepareEncryption D w hs
  | .clientFinishedVd hash => l.inActive (·.clientFinishedVd D w hash)
  | .serverFinishedVd hash => l.inActive (·.serverFinishedVd D w hash)
  | .pushIncoming msg => l.inActive (·.pushIncoming w msg)
  | .nextIncoming => l.nextIncoming
  | .pushOutgoing msg => l.inActive (·.pushOutgoing w msg)
  | .nextOutgoing => l.nextOutgoing
  | .startTraffic => l.inActive (·.startTraffic w)
  | .flush => l.flush D w
  | .isEmpty => (l, [], .flag l.isEmpty)
  | .closeConnection => l.closeConnection D w
  | .enableDecryption enable => ({ l with isDecrypting := enable }, [], .done)
  | .finish => (l.finish.1, [], .finished l.finish.2)

/-- Performs calls one after the other, whatever their results. -/
def Leader.run (D : Deps) (cfg : Limits) (l : Leader) : List (LCall × World) → Leader × List (List Msg × LResult)
  | [] => (l, [])
  | (c, w) :: rest =>
    let r := l.step D cfg w c
    let s := r.1.run D cfg rest
    (s.1, r.2 :: s.2)

/-- The messages that were sent. -/
def sentMessages (out : List (List Msg × LResult)) : List Msg := out.flatMap (·.1)

end Tlsn.Mpc
