import Verif.Sdk.Reveal

/-!
# Model of `SdkProver` and `SdkVerifier`

crates/sdk-core/src/prover.rs and crates/sdk-core/src/verifier.rs.  What the underlying protocol does in a call is
an argument of the call (`Ext`): it finishes, it fails, or the caller drops the future before it is done.
-/

namespace Tlsn.Sdk

/-- What happened to the awaited protocol steps of a call. -/
inductive Ext (α : Type) where
  | done (a : α)
  | failed
  | dropped

/-- crates/sdk-core/src/error.rs:18-33 `ErrorKind`, the kinds used by the two state machines. -/
inductive SdkErrorKind where
  | config
  | invalidState
  | protocol
  | internal
  deriving DecidableEq, Repr

/-- Calls made one after the other on an object: the last state, and the calls with their replies. -/
def runCalls {σ κ ρ : Type} (step : σ → κ → σ × ρ) (s : σ) (calls : List κ) : σ × List (κ × ρ) :=
  calls.foldl (fun acc call => ((step acc.1 call).1, acc.2 ++ [(call, (step acc.1 call).2)])) (s, [])

/-! ## The prover -/

/-- crates/sdk-core/src/config.rs:11-17 `ProverMode`. -/
inductive Mode where
  | mpc
  | proxy
  deriving DecidableEq, Repr

/-- crates/sdk-core/src/config.rs:21-44 `ProverConfig`, the fields the state machine reads.  `validName`: the name parses as a DNS
name (crates/sdk-core/src/prover.rs:126 and 325). -/
structure SdkProverConfig where
  serverName : Text
  validName : Bool
  mode : Mode
  maxSentData : Nat
  maxSentRecords : Option Nat
  maxRecvDataOnline : Option Nat
  maxRecvData : Nat
  maxRecvRecordsOnline : Option Nat
  deferDecryption : Option Bool
  network : NetworkSetting
  deriving DecidableEq, Repr

/-- crates/sdk-core/src/prover.rs:40-54 `State`; the provers and handles inside are left out, except the transcript. -/
inductive PState where
  | initialized
  | acceptedMpc
  | acceptedProxy
  | committed (t : Transcript)
  | complete
  | error

/-- crates/sdk-core/src/prover.rs:77-95 `new`: true if a prover is returned. -/
def SdkProverConfig.accepted (c : SdkProverConfig) : Bool :=
  if c.serverName.isEmpty then false
  else if c.mode = .mpc then
    if c.maxSentData = 0 then false
    else if c.maxRecvData = 0 then false
    else true
  else true

/-- crates/sdk-core/src/prover.rs:141-163: the configuration built in MPC mode. -/
def SdkProverConfig.commitConfig (c : SdkProverConfig) : Except MpcTlsConfigError MpcTlsConfig :=
  MpcTlsConfigBuilder.build
    { maxSentData := some c.maxSentData
      maxRecvData := some c.maxRecvData
      maxRecvDataOnline := c.maxRecvDataOnline
      maxSentRecords := c.maxSentRecords
      maxRecvRecordsOnline := c.maxRecvRecordsOnline
      deferDecryption := c.deferDecryption
      network := some c.network }

/-- The public calls of the prover. -/
inductive PCall where
  | setup (e : Ext Unit)
  | sendMpc (e : Ext Transcript)
  | sendProxy (e : Ext Transcript)
  | transcript
  | reveal (r : Reveal) (c : Option Commit) (order : List CommitEntry → List CommitEntry)
      (e : ProveConfig → Ext ProverOutput)

/-- What the calls return. -/
inductive PReply where
  | ok
  | transcript (t : Transcript)
  | output (o : RevealOutput)
  | err (k : SdkErrorKind)
  | dropped

/-- crates/sdk-core/src/prover.rs:104-176 `setup`. -/
def proverSetup (c : SdkProverConfig) (s : PState) (e : Ext Unit) : PState × PReply :=
  match s with
  | .initialized =>
    match c.mode with
    | .proxy =>
      if !c.validName then (.error, .err .config)
      else match e with
        | .done _ => (.acceptedProxy, .ok)
        | .failed => (.error, .err .protocol)
        | .dropped => (.error, .dropped)
    | .mpc =>
      match c.commitConfig with
      | .error _ => (.error, .err .config)
      | .ok _ => match e with
        | .done _ => (.acceptedMpc, .ok)
        | .failed => (.error, .err .protocol)
        | .dropped => (.error, .dropped)
  | _ => (.error, .err .invalidState)

/-- The common part of `send_request_mpc` (crates/sdk-core/src/prover.rs:191-245) and `send_request_proxy` (crates/sdk-core/src/prover.rs:255-305). -/
def proverSend (c : SdkProverConfig) (e : Ext Transcript) : PState × PReply :=
  if !c.validName then (.error, .err .config)
  else match e with
    | .done t => (.committed t, .ok)
    | .failed => (.error, .err .protocol)
    | .dropped => (.error, .dropped)

/-- crates/sdk-core/src/prover.rs:377-443 `reveal`. -/
def proverReveal (s : PState) (r : Reveal) (commit : Option Commit) (order : List CommitEntry → List CommitEntry)
    (e : ProveConfig → Ext ProverOutput) : PState × PReply :=
  match s with
  | .committed t =>
    match revealConfig t order r commit with
    | .error _ => (.error, .err .config)
    | .ok cfg =>
      match e cfg with
      | .failed => (.error, .err .protocol)
      | .dropped => (.error, .dropped)
      | .done out =>
        match buildRevealOutput out with
        | .ok o => (.complete, .output o)
        | .error _ => (.complete, .err .internal)
  | _ => (.error, .err .invalidState)

/-- One call.  `transcript` (crates/sdk-core/src/prover.rs:352-358) only looks at the state. -/
def proverCall (c : SdkProverConfig) (s : PState) : PCall → PState × PReply
  | .setup e => proverSetup c s e
  | .sendMpc e => match s with
    | .acceptedMpc => proverSend c e
    | _ => (.error, .err .invalidState)
  | .sendProxy e => match s with
    | .acceptedProxy => proverSend c e
    | _ => (.error, .err .invalidState)
  | .transcript => match s with
    | .committed t => (s, .transcript t)
    | _ => (s, .err .invalidState)
  | .reveal r commit order e => proverReveal s r commit order e

/-- A prover's life: crates/sdk-core/src/prover.rs:91-94, then the calls. -/
def runProver (c : SdkProverConfig) (calls : List PCall) : PState × List (PCall × PReply) :=
  runCalls (proverCall c) .initialized calls

/-- crates/sdk-core/src/prover.rs:444-446 `is_complete`. -/
def PState.isComplete : PState → Bool
  | .complete => true
  | _ => false

/-! ## The verifier -/

/-- crates/sdk-core/src/config.rs:173-184 `VerifierConfig`, without the root store. -/
structure SdkVerifierConfig where
  maxSentData : Nat
  maxRecvData : Nat
  maxSentRecords : Option Nat
  maxRecvRecordsOnline : Option Nat
  deriving DecidableEq, Repr

/-- `>` on `Option<usize>`: `None` is below every `Some`. -/
def optionGt : Option Nat → Option Nat → Bool
  | none, _ => false
  | some _, none => true
  | some a, some b => decide (a > b)

/-- crates/sdk-core/src/verifier.rs:136-151: whether the configuration proposed by the prover is refused. -/
def SdkVerifierConfig.refuses (l : SdkVerifierConfig) (c : MpcTlsConfig) : Bool :=
  if c.maxSentData > l.maxSentData then true
  else if c.maxRecvData > l.maxRecvData then true
  else if optionGt c.maxSentRecords l.maxSentRecords then true
  else if optionGt c.maxRecvRecordsOnline l.maxRecvRecordsOnline then true
  else false

/-- crates/sdk-core/src/verifier.rs:28-51 `State`. -/
inductive VState where
  | initialized
  | connected
  | acceptedMpc
  | acceptedProxy (serverSocket : Bool)
  | committed
  | complete
  | error
  deriving DecidableEq, Repr

/-- crates/tlsn/src/verifier.rs:134-139 `VerifierCommitStart`: what the prover proposes, with the outcome of the
message that accepts it. -/
inductive Proposal where
  | mpc (c : MpcTlsConfig) (accept : Ext Unit)
  | proxy (name : Text) (accept : Ext Unit)

/-- A record of the TLS transcript: whether it is application data, and the length of its ciphertext. -/
abbrev RecordInfo := Bool × Nat

/-- What `verify` reads from the TLS transcript (crates/sdk-core/src/verifier.rs:249-281). -/
structure SessionInfo where
  time : Nat
  version : TlsVersion
  sent : List RecordInfo
  recv : List RecordInfo

/-- What `verify` gets from the protocol. -/
structure SessionOutput where
  serverName : Option Text
  transcript : Option PartialTranscript

/-- The public calls of the verifier. -/
inductive VCall where
  | connect (e : Ext Unit)
  | setup (e : Ext Proposal)
  | setServerSocket
  | run (e : Ext Unit)
  | verify (info : SessionInfo) (e : Ext SessionOutput)

/-- crates/sdk-core/src/types.rs:179-187 `ConnectionInfo`, with the `TranscriptLength`. -/
structure SdkConnectionInfo where
  time : Nat
  version : TlsVersion
  sentLength : Nat
  recvLength : Nat
  deriving DecidableEq

/-- crates/sdk-core/src/types.rs:218-228 `PartialTranscript` -/
structure SdkPartial where
  sent : Bytes
  sentAuthed : List Rng
  recv : Bytes
  recvAuthed : List Rng
  deriving DecidableEq

/-- crates/sdk-core/src/types.rs:230-239 `From<PartialTranscript>` -/
def SdkPartial.ofCore (t : PartialTranscript) : SdkPartial where
  sent := t.sent
  sentAuthed := t.sentAuthed.ranges
  recv := t.received
  recvAuthed := t.receivedAuthed.ranges

/-- crates/sdk-core/src/types.rs:464-471 `VerifierOutput` -/
structure SdkVerifierOutput where
  serverName : Option Text
  connection : SdkConnectionInfo
  transcript : Option SdkPartial
  deriving DecidableEq

/-- What the calls return. -/
inductive VReply where
  | ok
  | proxyFor (name : Text)
  | output (o : SdkVerifierOutput)
  | err (k : SdkErrorKind)
  | dropped

/-- crates/sdk-core/src/verifier.rs:121-183 `setup`. -/
def verifierSetup (l : SdkVerifierConfig) (s : VState) (e : Ext Proposal) : VState × VReply :=
  match s with
  | .connected =>
    match e with
    | .failed => (.error, .err .protocol)
    | .dropped => (.error, .dropped)
    | .done (.mpc c accept) =>
      if l.refuses c then (.error, .err .protocol)
      else match accept with
        | .done _ => (.acceptedMpc, .ok)
        | .failed => (.error, .err .protocol)
        | .dropped => (.error, .dropped)
    | .done (.proxy name accept) =>
      match accept with
      | .done _ => (.acceptedProxy false, .proxyFor name)
      | .failed => (.error, .err .protocol)
      | .dropped => (.error, .dropped)
  | _ => (.error, .err .invalidState)

/-- crates/sdk-core/src/verifier.rs:251-265 and 274-281: the application data's length, as `u32`. -/
def appDataLength (rs : List RecordInfo) : Nat := ((rs.filter (·.1)).map (·.2)).sum % 2 ^ 32

/-- crates/sdk-core/src/verifier.rs:244-307 `verify`. -/
def verifierVerify (s : VState) (info : SessionInfo) (e : Ext SessionOutput) : VState × VReply :=
  match s with
  | .committed =>
    match e with
    | .failed => (.error, .err .protocol)
    | .dropped => (.error, .dropped)
    | .done o => (.complete, .output ⟨o.serverName,
        ⟨info.time, info.version, appDataLength info.sent, appDataLength info.recv⟩,
        o.transcript.map SdkPartial.ofCore⟩)
  | _ => (.error, .err .invalidState)

/-- One call: `connect` (crates/sdk-core/src/verifier.rs:85-115), `setup`, `set_server_socket` (crates/sdk-core/src/verifier.rs:191-206), `run`
(crates/sdk-core/src/verifier.rs:212-243), `verify`. -/
def verifierCall (l : SdkVerifierConfig) (s : VState) : VCall → VState × VReply
  | .connect e => match s with
    | .initialized => match e with
      | .done _ => (.connected, .ok)
      | .failed => (.error, .err .protocol)
      | .dropped => (.error, .dropped)
    | _ => (.error, .err .invalidState)
  | .setup e => verifierSetup l s e
  | .setServerSocket => match s with
    | .acceptedProxy _ => (.acceptedProxy true, .ok)
    | _ => (s, .err .invalidState)
  | .run e => match s with
    | .acceptedMpc | .acceptedProxy true => match e with
      | .done _ => (.committed, .ok)
      | .failed => (.error, .err .protocol)
      | .dropped => (.error, .dropped)
    | _ => (.error, .err .invalidState)
  | .verify info e => verifierVerify s info e

/-- A verifier's life: `new` (crates/sdk-core/src/verifier.rs:73-78), then the calls. -/
def runVerifier (l : SdkVerifierConfig) (calls : List VCall) : VState × List (VCall × VReply) :=
  runCalls (verifierCall l) .initialized calls

end Tlsn.Sdk
