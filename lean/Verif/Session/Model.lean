import Verif.KeyExchange.Model
import Verif.Prf.Model
import Verif.TlsTranscript.Model

/-!
# Model of crates/mpc-tls/src/{utils,msg,follower}.rs

What the two parties run is put together here from the models of its parts: the key exchange, the PRF, the record layer and
the builder of transcripts.  What a party does not decide itself is in a `World`: its clock, the shares that it gets from the
share conversion, what its peer puts into the virtual machine, and whether a protocol run or a write to the connection
succeeds.  The lock of the virtual machine is free.
-/

namespace Tlsn.Mpc

open Hmac (Sha Vm Prf PrfConfig PrfOutput PrfError NetworkMode VecRef flushPrf)
open Kex (AddMod Kx KxError Fp Point)

/-- crates/mpc-tls/src/error.rs:62-81 `ErrorRepr`, without the messages.  `waits` is not an error of the code: the call does not come to an
end. -/
inductive Err where
  | peer
  | io
  | state
  | alloc
  | preprocess
  | hs
  | recordLayer
  | other
  | waits
  deriving DecidableEq, Repr

/-! ## utils.rs -/

/-- crates/mpc-tls/src/utils.rs:25-37 `opaque_into_parts`: nonce, ciphertext and tag. -/
def opaqueIntoParts (msg : Bytes) : Outcome Err (Bytes × Bytes × Bytes) :=
  if msg.length < 8 + 16 then .err .recordLayer
  else
    let tag := msg.drop (msg.length - 16)
    let msg := msg.take (msg.length - 16)
    .ok (msg.take 8, msg.drop 8, tag)

/-- crates/mpc-tls/src/utils.rs:133-163 `check_close_notify`; `AlertDescription::CloseNotify` is 0. -/
def checkCloseNotify (records : List Record) : Outcome Err Unit :=
  match records.getLast? with
  | none => .ok ()
  | some last =>
    match last.typ with
    | .applicationData => .ok ()
    | .alert =>
      match last.plaintext with
      | none => .err .peer
      | some payload =>
        match codecAlert.read (Reader.init payload) with
        | none => .err .peer
        | some (alert, _) => if alert.2 = 0 then .ok () else .err .peer
    | _ => .err .peer

/-- The values that `cf_vd()` and `sf_vd()` give, with the two ways to panic put together: `client_finished` on no records
(crates/core/src/transcript/tls.rs:82-109) and `expect` (crates/mpc-tls/src/utils.rs:113-115, 120-122). -/
def expectVd : Option (Option Bytes) → Outcome Err Bytes
  | some (some vd) => .ok vd
  | _ => .panic

/-- crates/mpc-tls/src/utils.rs:108-131 `verify_transcript`. -/
def verifyTranscript (t : TlsTranscript) (expectedCf expectedSf : Bytes) : Outcome Err Unit :=
  expectVd t.cfVd >>= fun cf =>
  if cf ≠ expectedCf then .err .peer
  else expectVd t.sfVd >>= fun sf =>
  if sf ≠ expectedSf then .err .peer
  else checkCloseNotify t.sent >>= fun _ => checkCloseNotify t.recv

/-! ## msg.rs -/

/-- `NamedGroup` of crates/tls-core/src/msgs/enums.rs, as far as it is told apart here. -/
inductive Group where
  | secp256r1
  | other (code : UInt16)
  deriving DecidableEq, Repr

/-- crates/tls-core/src/key.rs:40-43 `PublicKey`. -/
structure PubKey where
  group : Group
  key : Bytes
  deriving DecidableEq, Repr

/-- crates/mpc-tls/src/msg.rs:35-44 `ServerHello`. -/
structure Hello where
  time : Nat
  random : Vector Byte 32
  key : PubKey
  deriving DecidableEq

/-- crates/mpc-tls/src/msg.rs:8-33 `Message`, with `Decrypt` and `Encrypt` of 46-61. -/
inductive Msg where
  | setClientRandom (random : Vector Byte 32)
  | serverHello (hello : Hello)
  | clientFinishedVd (hash : Vector Byte 32)
  | serverFinishedVd (hash : Vector Byte 32)
  | encrypt (typ : ContentType) (version : ProtocolVersion) (len : Nat) (plaintext : Option Bytes)
  | decrypt (typ : ContentType) (version : ProtocolVersion) (nonce ciphertext tag : Bytes)
  | startTraffic
  | flush (isDecrypting : Bool)
  | closeConnection
  deriving DecidableEq

/-! ## What both parties have -/

/-- The functions that the code takes from elsewhere. -/
structure Deps where
  /-- SHA-256. -/
  sha : Sha
  /-- The circuit for modular addition. -/
  add : AddMod
  /-- `p256::PublicKey::from_sec1_bytes`. -/
  parseKey : Bytes → Option Point
  /-- What the builder of transcripts needs. -/
  tt : TtEnv
  /-- AES-GCM under the client's key and IV and the server's key and IV. -/
  aead : Bytes → Bytes → Bytes → Bytes → SessionFns
  /-- The application data that enters the joint encryption of a record and that the party does not know. -/
  peerData : Nat → Bytes
  /-- crates/tls-core/src/verify.rs:517-527 `verify_sig_determine_alg`: certificate, message, scheme and signature. -/
  sigAlg : Bytes → Bytes → UInt16 → Bytes → Option SignatureAlgorithm
  /-- The number of rounds of `flush_prf` after which it is considered not to end. -/
  rounds : Nat

/-- crates/mpc-tls/src/config.rs:37-65 `Config`, as far as it is used. -/
structure Limits where
  network : NetworkMode
  maxSentRecords : Nat
  maxRecvRecordsOnline : Nat
  maxSent : Nat
  maxRecvOnline : Nat
  maxRecv : Nat
  deriving DecidableEq, Repr

/-- What happens around a party while it performs a step. -/
structure World where
  /-- The clock, in seconds. -/
  now : Nat
  /-- The results of the two share conversions. -/
  share0 : Outcome KxError Fp
  share1 : Outcome KxError Fp
  /-- What the peer puts into the machine as its shares. -/
  peerShares : Option (Bytes × Bytes)
  /-- The protocol run with the peer succeeds. -/
  mpcOk : Bool
  /-- Writing to the connection succeeds. -/
  ioOk : Bool

/-- The machinery of a connection, crates/mpc-tls/src/follower.rs:376-400 `State` and crates/mpc-tls/src/leader.rs:780-786 `Core`.  `ready` says that the AEADs of the record
layer are set up (crates/mpc-tls/src/record_layer/aead/aes_gcm.rs:29-49). -/
structure Core where
  vm : Vm
  ke : Kx
  prf : Prf
  out : PrfOutput
  rl : RecordLayer
  ready : Bool

/-- crates/mpc-tls/src/utils.rs:45-89 `alloc_session`.  The memory of the record layer is left out. -/
def Core.alloc (D : Deps) (cfg : Limits) (role : Role) (sk : Nat) (otp : Bytes) (vm : Vm) : Outcome Err Core :=
  let ke := Kx.new (match role with | .leader => .leader | .follower => .follower) sk
  match ke.alloc D.add vm with
  | (ke, vm1, .ok pms) =>
    match (Prf.new ⟨cfg.network, .standard⟩).allocPms D.sha vm1 pms with
    | .ok (prf, vm2, out) =>
      .ok ⟨vm2, ke, prf, out, RecordLayer.online role otp cfg.maxSentRecords cfg.maxRecvRecordsOnline cfg.maxSent
        cfg.maxRecvOnline cfg.maxRecv, false⟩
    | .err _ => .err .hs
    | .panic => .panic
  | (_, _, .err _) => .err .hs
  | (_, _, .panic) => .panic

/-- `ke.setup` in `preprocess`, crates/mpc-tls/src/follower.rs:138-198 and crates/mpc-tls/src/leader.rs:150-229; the rest of it has no effect here. -/
def Core.preprocess (c : Core) (peerKey : Option Point) : Outcome Err Core :=
  match c.ke.setup peerKey with
  | (ke, .ok ()) => .ok { c with ke }
  | (_, .err _) => .err .preprocess
  | (_, .panic) => .panic

/-- crates/mpc-tls/src/utils.rs:91-103 `flush_prf`. -/
def Core.flushPrf (D : Deps) (c : Core) : Outcome Err Core :=
  match Hmac.flushPrf D.sha D.rounds c.prf c.vm with
  | some (.ok (prf, vm)) => .ok { c with prf, vm }
  | some (.err _) => .err .hs
  | some .panic => .panic
  | none => .err .waits

/-- `?` on a result of the PRF, crates/mpc-tls/src/error.rs:93-97. -/
def liftPrf {α : Type} : Outcome PrfError α → Outcome Err α
  | .ok a => .ok a
  | .err _ => .err .hs
  | .panic => .panic

/-- `?` on a result of the key exchange, crates/mpc-tls/src/error.rs:87-91. -/
def liftKx {α : Type} (a : α) : Outcome KxError Unit → Outcome Err α
  | .ok () => .ok a
  | .err _ => .err .hs
  | .panic => .panic

/-- What the peer puts into the machine: the inputs that are not the party's own (crates/components/key-exchange/src/exchange.rs:367-393). -/
def Core.peerAssign (c : Core) (shares : Option (Bytes × Bytes)) : Outcome Err Core :=
  match c.ke.state, shares with
  | .computed s _ _, some (v0, v1) =>
    let (r0, r1) := match c.ke.role with
      | .leader => (s.b0, s.b1)
      | .follower => (s.a0, s.a1)
    match c.vm.assign r0 v0 with
    | .ok vm1 =>
      match vm1.assign r1 v1 with
      | .ok vm2 => .ok { c with vm := vm2 }
      | _ => .err .hs
    | _ => .err .hs
  | _, _ => .ok c

/-- `compute_shares`, crates/mpc-tls/src/follower.rs:259 and crates/mpc-tls/src/leader.rs:316. -/
def Core.computeShares (c : Core) (w : World) : Outcome Err Core :=
  liftKx { c with ke := (c.ke.storeShares w.share0 w.share1).1 } (c.ke.storeShares w.share0 w.share1).2

/-- `assign`, crates/mpc-tls/src/follower.rs:260 and crates/mpc-tls/src/leader.rs:323. -/
def Core.assign (c : Core) : Outcome Err Core :=
  liftKx { c with ke := (c.ke.assign c.vm).1, vm := (c.ke.assign c.vm).2.1 } (c.ke.assign c.vm).2.2

/-- `finalize`, crates/mpc-tls/src/follower.rs:264 and crates/mpc-tls/src/leader.rs:326. -/
def Core.finalize (c : Core) : Outcome Err Core :=
  liftKx { c with ke := (c.ke.finalize c.vm).1 } (c.ke.finalize c.vm).2

/-- `record_layer.setup`, crates/mpc-tls/src/follower.rs:265 and crates/mpc-tls/src/leader.rs:327, with crates/mpc-tls/src/record_layer.rs:246-268. -/
def Core.setup (c : Core) (w : World) : Outcome Err Core :=
  if w.mpcOk then .ok { c with ready := true } else .err .recordLayer

/-- crates/mpc-tls/src/follower.rs:250-265 and crates/mpc-tls/src/leader.rs:312-328: the key exchange with the server's key, and the session keys. -/
def Core.exchange (D : Deps) (c : Core) (w : World) (key : Bytes) : Outcome Err Core :=
  match D.parseKey key with
  | none => .err .hs
  | some p =>
    ({ c with ke := c.ke.setServerKey p } : Core).computeShares w >>= fun c =>
    c.peerAssign w.peerShares >>= fun c =>
    c.assign >>= fun c =>
    c.flushPrf D >>= fun c =>
    c.finalize >>= fun c =>
    c.setup w

/-- `prf.set_server_random`, crates/mpc-tls/src/follower.rs:244 and crates/mpc-tls/src/leader.rs:310. -/
def Core.setServerRandom (c : Core) (random : Vector Byte 32) : Outcome Err Core :=
  liftPrf (c.prf.setServerRandom random.toList) >>= fun prf => .ok { c with prf }

/-- `try_recv` on the future of a decoding; a value that is not there is an error (crates/mpc-tls/src/follower.rs:282-285, 301-304 and
crates/mpc-tls/src/leader.rs:387-390, 432-435). -/
def Core.recv (c : Core) (r : VecRef) : Outcome Err Bytes :=
  match c.vm.recv r.val with
  | some v => .ok v
  | none => .err .hs

/-- crates/mpc-tls/src/follower.rs:278-286 and crates/mpc-tls/src/leader.rs:384-390: the verify data of the client. -/
def Core.clientVd (D : Deps) (c : Core) (hash : Vector Byte 32) : Outcome Err (Core × Bytes) :=
  liftPrf (c.prf.setCfHash hash.toList) >>= fun prf =>
  ({ c with prf } : Core).flushPrf D >>= fun c =>
  c.recv c.out.cfVd >>= fun v => .ok (c, v)

/-- crates/mpc-tls/src/follower.rs:297-305 and crates/mpc-tls/src/leader.rs:429-435: the verify data of the server. -/
def Core.serverVd (D : Deps) (c : Core) (hash : Vector Byte 32) : Outcome Err (Core × Bytes) :=
  liftPrf (c.prf.setSfHash hash.toList) >>= fun prf =>
  ({ c with prf } : Core).flushPrf D >>= fun c =>
  c.recv c.out.sfVd >>= fun v => .ok (c, v)

/-- What the record layer computes with: AES-GCM under the values that the session keys have in the machine. -/
def Core.fns (D : Deps) (c : Core) : Option SessionFns :=
  match c.vm.recv c.out.keys.clientWriteKey.val, c.vm.recv c.out.keys.clientIv.val,
      c.vm.recv c.out.keys.serverWriteKey.val, c.vm.recv c.out.keys.serverIv.val with
  | some ck, some ci, some sk, some si => some (D.aead ck ci sk si)
  | _, _, _, _ => none

/-- `?` on a result of the record layer. -/
def liftRl (c : Core) (r : RecordLayer × Except RlError Unit) : Outcome Err Core :=
  match r with
  | (rl, .ok ()) => .ok { c with rl }
  | (_, .error _) => .err .recordLayer

/-- `record_layer.flush`.  Before the AEADs are set up it succeeds only if there is nothing to do (crates/mpc-tls/src/record_layer.rs:460-545;
the AEADs give an error, crates/mpc-tls/src/record_layer/aead/aes_gcm.rs:204-211, 272-277, 344-346, 397-399).  Without session keys the machine has nothing to
compute with. -/
def Core.flush (D : Deps) (c : Core) (w : World) (isDecrypting : Bool) : Outcome Err Core :=
  if c.ready then
    match c.fns D with
    | none => .err .recordLayer
    | some k => liftRl c (c.rl.flush k D.peerData ⟨true, w.mpcOk⟩ isDecrypting)
  else
    let pos := if isDecrypting then c.rl.decryptBuffer.length else firstAppData c.rl.decryptBuffer
    if c.rl.encryptBuffer.isEmpty && (c.rl.decryptBuffer.take pos).isEmpty then
      .ok { c with rl := { c.rl with encryptBuffer := [], decryptBuffer := c.rl.decryptBuffer.drop pos } }
    else .err .recordLayer

/-- `record_layer.commit`.  Before the AEADs are set up the follower fails in any case, here or because there is no server hello
(crates/mpc-tls/src/follower.rs:345); the leader does not get here. -/
def Core.commit (D : Deps) (c : Core) (w : World) : Outcome Err (Core × List Record × List Record) :=
  if c.ready then
    match c.fns D with
    | none => .err .recordLayer
    | some k =>
      match c.rl.commit k ⟨true, w.mpcOk⟩ with
      | (rl, .ok p) => .ok ({ c with rl }, p)
      | (_, .err _) => .err .recordLayer
      | (_, .panic) => .panic
  else .err .hs

/-- crates/core/src/connection.rs:225-238 `ServerEphemKey::try_from`, with the `expect` of crates/mpc-tls/src/follower.rs:355-358 and
crates/mpc-tls/src/leader.rs:720-723. -/
def ephemKey (k : PubKey) : Outcome Err ServerEphemKey :=
  if k.group = .secp256r1 then .ok ⟨k.key⟩ else .panic

/-- `build` with its errors put together. -/
def buildTranscript (D : Deps) (b : TtBuilder) : Outcome Err TlsTranscript :=
  match b.build D.tt with
  | .ok t => .ok t
  | .err _ => .err .other
  | .panic => .panic

/-! ## follower.rs -/

/-- The local variables of crates/mpc-tls/src/follower.rs:215-218. -/
structure Follower where
  core : Core
  clientRandom : Option (Vector Byte 32)
  hello : Option Hello
  cf : Option Bytes
  sf : Option Bytes

/-- crates/mpc-tls/src/follower.rs:99-134 `alloc`, 138-198 `preprocess`, and the start of `run` (202-218). -/
def Follower.start (D : Deps) (cfg : Limits) (sk : Nat) (vm : Vm) (peerKey : Option Point) : Outcome Err Follower :=
  Core.alloc D cfg .follower sk [] vm >>= fun c =>
  c.preprocess peerKey >>= fun c =>
  .ok ⟨c, none, none, none, none⟩

/-- crates/mpc-tls/src/follower.rs:33 `MAX_TIME_DIFF`, and `abs_diff` of `u64`. -/
def tooFar (time now : Nat) : Bool := decide ((if time < now then now - time else time - now) > 5)

/-- One iteration of crates/mpc-tls/src/follower.rs:220-332, except for `CloseConnection`. -/
def Follower.step (D : Deps) (f : Follower) (w : World) : Msg → Outcome Err Follower
  | .setClientRandom random =>
    if f.clientRandom.isSome then .err .hs
    else .ok { f with core := { f.core with prf := f.core.prf.setClientRandom random.toList }, clientRandom := some random }
  | .serverHello hello =>
    if f.hello.isSome then .err .hs
    else if tooFar hello.time w.now then .err .hs
    else f.core.setServerRandom hello.random >>= fun c =>
      if hello.key.group ≠ .secp256r1 then .err .hs
      else c.exchange D w hello.key.key >>= fun c => .ok { f with core := c, hello := some hello }
  | .clientFinishedVd hash =>
    if f.cf.isSome then .err .hs
    else f.core.clientVd D hash >>= fun r => .ok { f with core := r.1, cf := some r.2 }
  | .serverFinishedVd hash =>
    if f.sf.isSome then .err .hs
    else f.core.serverVd D hash >>= fun r => .ok { f with core := r.1, sf := some r.2 }
  | .encrypt typ version len plaintext =>
    liftRl f.core (f.core.rl.pushEncrypt typ version len plaintext) >>= fun c => .ok { f with core := c }
  | .decrypt typ version nonce ciphertext tag =>
    liftRl f.core (f.core.rl.pushDecrypt typ version nonce ciphertext tag) >>= fun c => .ok { f with core := c }
  | .startTraffic => .ok { f with core := { f.core with rl := { f.core.rl with started := true } } }
  | .flush isDecrypting => f.core.flush D w isDecrypting >>= fun c => .ok { f with core := c }
  | .closeConnection => .ok f

/-- An option or a handshake error. -/
def orHs {α : Type} : Option α → Outcome Err α
  | some a => .ok a
  | none => .err .hs

/-- crates/mpc-tls/src/follower.rs:333-372: after `CloseConnection`. -/
def Follower.close (D : Deps) (f : Follower) (w : World) : Outcome Err TlsTranscript :=
  f.core.commit D w >>= fun r =>
  orHs f.hello >>= fun hello =>
  orHs f.clientRandom >>= fun clientRandom =>
  orHs f.cf >>= fun cf =>
  orHs f.sf >>= fun sf =>
  ephemKey hello.key >>= fun key =>
  buildTranscript D {
    time := some hello.time
    version := some .v12
    certificateBinding := some ⟨clientRandom, hello.random, key⟩
    recordsSent := some r.2.1
    recordsRecv := some r.2.2 } >>= fun t =>
  verifyTranscript t cf sf >>= fun _ => .ok t

/-- crates/mpc-tls/src/follower.rs:202-373 `run`, from the loop on.  The messages that arrive are an argument; if there are no more, reading fails
(`expect_next`). -/
def Follower.run (D : Deps) (f : Follower) : List (Msg × World) → Outcome Err TlsTranscript
  | [] => .err .io
  | (.closeConnection, w) :: _ => f.close D w
  | (m, w) :: rest => f.step D w m >>= fun f => f.run D rest

/-- A follower from the beginning to the end. -/
def runFollower (D : Deps) (cfg : Limits) (sk : Nat) (vm : Vm) (peerKey : Option Point) (input : List (Msg × World)) :
    Outcome Err TlsTranscript :=
  Follower.start D cfg sk vm peerKey >>= fun f => f.run D input

end Tlsn.Mpc
