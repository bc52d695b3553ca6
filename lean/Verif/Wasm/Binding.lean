import Verif.Sdk.Machine
import Verif.ClientAuth.Model

/-! # The JavaScript bindings of prover and verifier

crates/wasm/src/prover/mod.rs, crates/wasm/src/verifier/mod.rs and the builders of crates/sdk-core/src/config.rs: what a
JavaScript program gives is turned into the arguments of the SDK, and its answers into JavaScript values. The values as
`serde` reads them are the starting point. -/

namespace Tlsn.Wasm

open Tlsn.Sdk (Text PState PCall PReply Ext SdkProverConfig SdkVerifierConfig)
open Tlsn.ClientAuth (TlsClientConfig TlsConfigBuilder TlsConfigError)

/-! ## The SDK's builders -/

/-- What the builders take from elsewhere: certificates as trust anchors, `DnsName::try_from`, PEM, and the roots of Mozilla, if the
feature is on. -/
structure Reads where
  anchor : Bytes → Option Bytes
  dns : Text → Option Bytes
  pem : Bytes → Option Bytes
  mozilla : Option (List Bytes)

/-- crates/sdk-core/src/config.rs:54-66 `ProverConfigBuilder` -/
structure ProverBuilder where
  serverName : Text
  mode : Sdk.Mode
  maxSentData : Nat
  maxSentRecords : Option Nat
  maxRecvDataOnline : Option Nat
  maxRecvData : Nat
  maxRecvRecordsOnline : Option Nat
  deferDecryption : Option Bool
  network : NetworkSetting
  clientAuth : Option (List Bytes × Bytes)
  rootCerts : Option (List Bytes)

namespace ProverBuilder

/-- crates/sdk-core/src/config.rs:70-84 `new` -/
def new (name : Text) : ProverBuilder where
  serverName := name
  mode := .mpc
  maxSentData := 4096
  maxSentRecords := none
  maxRecvDataOnline := none
  maxRecvData := 16384
  maxRecvRecordsOnline := none
  deferDecryption := none
  network := .latency
  clientAuth := none
  rootCerts := none

/-- crates/sdk-core/src/config.rs:87-90 `mode` -/
def setMode (b : ProverBuilder) (m : Sdk.Mode) : ProverBuilder := { b with mode := m }

/-- crates/sdk-core/src/config.rs:93-96 `max_sent_data` -/
def setMaxSentData (b : ProverBuilder) (n : Nat) : ProverBuilder := { b with maxSentData := n }

/-- crates/sdk-core/src/config.rs:99-102 `max_sent_records` -/
def setMaxSentRecords (b : ProverBuilder) (n : Nat) : ProverBuilder := { b with maxSentRecords := some n }

/-- crates/sdk-core/src/config.rs:105-108 `max_recv_data_online` -/
def setMaxRecvDataOnline (b : ProverBuilder) (n : Nat) : ProverBuilder := { b with maxRecvDataOnline := some n }

/-- crates/sdk-core/src/config.rs:111-114 `max_recv_data` -/
def setMaxRecvData (b : ProverBuilder) (n : Nat) : ProverBuilder := { b with maxRecvData := n }

/-- crates/sdk-core/src/config.rs:117-120 `max_recv_records_online` -/
def setMaxRecvRecordsOnline (b : ProverBuilder) (n : Nat) : ProverBuilder := { b with maxRecvRecordsOnline := some n }

/-- crates/sdk-core/src/config.rs:123-126 `defer_decryption_from_start` -/
def setDeferDecryption (b : ProverBuilder) (v : Bool) : ProverBuilder := { b with deferDecryption := some v }

/-- crates/sdk-core/src/config.rs:129-132 `network` -/
def setNetwork (b : ProverBuilder) (n : NetworkSetting) : ProverBuilder := { b with network := n }

/-- crates/sdk-core/src/config.rs:135-138 `client_auth` -/
def setClientAuth (b : ProverBuilder) (certs : List Bytes) (key : Bytes) : ProverBuilder :=
  { b with clientAuth := some (certs, key) }

/-- crates/sdk-core/src/config.rs:143-146 `root_certs` -/
def setRootCerts (b : ProverBuilder) (certs : List Bytes) : ProverBuilder := { b with rootCerts := some certs }

end ProverBuilder

/-- Why there are no roots. -/
inductive RootError where
  | invalid (index : Nat)
  | missing
  deriving DecidableEq, Repr

/-- crates/sdk-core/src/config.rs:301-313 The loop over the certificates; `i`: the index of the first. -/
def checkRoots (R : Reads) (i : Nat) : List Bytes → Except RootError (List Bytes)
  | [] => .ok []
  | c :: cs =>
    match R.anchor c with
    | none => .error (.invalid i)
    | some _ =>
      match checkRoots R (i + 1) cs with
      | .error e => .error e
      | .ok rest => .ok (c :: rest)

/-- crates/sdk-core/src/config.rs:298-329 `build_root_store` -/
def buildRootStore (R : Reads) : Option (List Bytes) → Except RootError (List Bytes)
  | some certs => checkRoots R 0 certs
  | none =>
    match R.mozilla with
    | some roots => .ok roots
    | none => .error .missing

/-- crates/sdk-core/src/config.rs:21-44 `ProverConfig`: the fields of the state machine and the rest. -/
structure CoreProverConfig where
  machine : SdkProverConfig
  clientAuth : Option (List Bytes × Bytes)
  rootStore : List Bytes
  deriving DecidableEq, Repr

/-- crates/sdk-core/src/config.rs:153-168 `build` -/
def ProverBuilder.build (R : Reads) (b : ProverBuilder) : Except RootError CoreProverConfig :=
  match buildRootStore R b.rootCerts with
  | .error e => .error e
  | .ok roots => .ok {
      machine := {
        serverName := b.serverName
        validName := (R.dns b.serverName).isSome
        mode := b.mode
        maxSentData := b.maxSentData
        maxSentRecords := b.maxSentRecords
        maxRecvDataOnline := b.maxRecvDataOnline
        maxRecvData := b.maxRecvData
        maxRecvRecordsOnline := b.maxRecvRecordsOnline
        deferDecryption := b.deferDecryption
        network := b.network }
      clientAuth := b.clientAuth
      rootStore := roots }

/-- Errors of `build_tls_config`. -/
inductive SdkTlsError where
  | name
  | field (e : TlsConfigError)
  deriving DecidableEq, Repr

/-- crates/sdk-core/src/prover.rs:342-348 A client's certificate: PEM if it can be read so, DER otherwise. -/
def readCert (R : Reads) (cert : Bytes) : Bytes :=
  match R.pem cert with
  | some der => der
  | none => cert

/-- crates/sdk-core/src/prover.rs:327-356 `build_tls_config` -/
def CoreProverConfig.tlsConfig (R : Reads) (c : CoreProverConfig) : Except SdkTlsError TlsClientConfig :=
  match R.dns c.machine.serverName with
  | none => .error .name
  | some name =>
    let b : TlsConfigBuilder := { serverName := some name, rootStore := some c.rootStore }
    let b := match c.clientAuth with
      | some (certs, key) => { b with clientAuth := some (certs.map (readCert R), key) }
      | none => b
    match b.build with
    | .error e => .error (.field e)
    | .ok t => .ok t

/-- crates/sdk-core/src/config.rs:194-200 `VerifierConfigBuilder` -/
structure VerifierBuilder where
  maxSentData : Nat
  maxRecvData : Nat
  maxSentRecords : Option Nat
  maxRecvRecordsOnline : Option Nat
  rootCerts : Option (List Bytes)

/-- crates/sdk-core/src/config.rs:203-211 `default` -/
def VerifierBuilder.new : VerifierBuilder where
  maxSentData := 4096
  maxRecvData := 16384
  maxSentRecords := none
  maxRecvRecordsOnline := none
  rootCerts := none

/-- crates/sdk-core/src/config.rs:253-262 `build`: the limits and the roots. -/
def VerifierBuilder.build (R : Reads) (b : VerifierBuilder) : Except RootError (SdkVerifierConfig × List Bytes) :=
  match buildRootStore R b.rootCerts with
  | .error e => .error e
  | .ok roots => .ok (⟨b.maxSentData, b.maxRecvData, b.maxSentRecords, b.maxRecvRecordsOnline⟩, roots)

/-! ## What JavaScript gives -/

/-- crates/wasm/src/prover/config.rs:8-13 `ProverMode` -/
inductive JsMode where
  | mpc
  | proxy
  deriving DecidableEq, Repr

/-- crates/wasm/src/types.rs:206-211 `NetworkSetting` -/
inductive JsNetwork where
  | bandwidth
  | latency
  deriving DecidableEq, Repr

/-- crates/wasm/src/types.rs:118-125 `HashAlgorithm` -/
inductive JsHash where
  | blake3
  | sha256
  | keccak256
  deriving DecidableEq, Repr

/-- crates/wasm/src/prover/config.rs:17-33 `ProverConfig` -/
structure JsProverConfig where
  serverName : Text
  mode : JsMode
  maxSentData : Nat
  maxSentRecords : Option Nat
  maxRecvDataOnline : Option Nat
  maxRecvData : Nat
  maxRecvRecordsOnline : Option Nat
  deferDecryption : Option Bool
  network : JsNetwork
  clientAuth : Option (List Bytes × Bytes)
  rootCerts : Option (List Bytes)

/-- crates/wasm/src/verifier/config.rs:6-15 `VerifierConfig` -/
structure JsVerifierConfig where
  maxSentData : Nat
  maxRecvData : Nat
  maxSentRecords : Option Nat
  maxRecvRecordsOnline : Option Nat
  rootCerts : Option (List Bytes)

/-- crates/wasm/src/types.rs:134-141 `CommitRange` -/
structure JsCommitRange where
  start : Nat
  stop : Nat
  algorithm : JsHash

/-- crates/wasm/src/types.rs:146-151 `Commit` -/
structure JsCommit where
  sent : List JsCommitRange
  recv : List JsCommitRange

/-- crates/wasm/src/types.rs:156-163 `Reveal` -/
structure JsReveal where
  sent : List Rng
  recv : List Rng
  serverIdentity : Bool

/-- crates/wasm/src/prover/mod.rs:171-213 `convert_prover_config` -/
def convertProverConfig (R : Reads) (c : JsProverConfig) : Except RootError CoreProverConfig :=
  let b := (((ProverBuilder.new c.serverName).setMaxSentData c.maxSentData).setMaxRecvData c.maxRecvData).setNetwork
    (match c.network with
      | .bandwidth => .bandwidth
      | .latency => .latency)
  let b := b.setMode (match c.mode with
    | .mpc => .mpc
    | .proxy => .proxy)
  let b := match c.maxSentRecords with
    | some v => b.setMaxSentRecords v
    | none => b
  let b := match c.maxRecvDataOnline with
    | some v => b.setMaxRecvDataOnline v
    | none => b
  let b := match c.maxRecvRecordsOnline with
    | some v => b.setMaxRecvRecordsOnline v
    | none => b
  let b := match c.deferDecryption with
    | some v => b.setDeferDecryption v
    | none => b
  let b := match c.clientAuth with
    | some (certs, key) => b.setClientAuth certs key
    | none => b
  let b := match c.rootCerts with
    | some certs => b.setRootCerts certs
    | none => b
  b.build R

/-- crates/wasm/src/verifier/mod.rs:101-119 `convert_verifier_config`, with the setters of crates/sdk-core/src/config.rs:215-244. -/
def convertVerifierConfig (R : Reads) (c : JsVerifierConfig) : Except RootError (SdkVerifierConfig × List Bytes) :=
  let b := { VerifierBuilder.new with maxSentData := c.maxSentData, maxRecvData := c.maxRecvData }
  let b := match c.maxSentRecords with
    | some v => { b with maxSentRecords := some v }
    | none => b
  let b := match c.maxRecvRecordsOnline with
    | some v => { b with maxRecvRecordsOnline := some v }
    | none => b
  let b := match c.rootCerts with
    | some certs => { b with rootCerts := some certs }
    | none => b
  b.build R

/-- crates/wasm/src/prover/mod.rs:251-257 `convert_hash_algorithm` -/
def convertHash : JsHash → Sdk.HashAlgorithm
  | .blake3 => .blake3
  | .sha256 => .sha256
  | .keccak256 => .keccak256

/-- crates/wasm/src/prover/mod.rs:259-265 `convert_commit_range` -/
def convertCommitRange (c : JsCommitRange) : Sdk.CommitRange := ⟨c.start, c.stop, convertHash c.algorithm⟩

/-- crates/wasm/src/prover/mod.rs:267-272 `convert_commit` -/
def convertCommit (c : JsCommit) : Sdk.Commit := ⟨c.sent.map convertCommitRange, c.recv.map convertCommitRange⟩

/-- crates/wasm/src/prover/mod.rs:288-302 `convert_reveal`, with the setters of crates/sdk-core/src/types.rs, which append. -/
def convertReveal (r : JsReveal) : Sdk.Reveal :=
  let core : Sdk.Reveal := ⟨[], [], false⟩
  let core := r.sent.foldl (fun c x => { c with sent := c.sent ++ [x] }) core
  let core := r.recv.foldl (fun c x => { c with recv := c.recv ++ [x] }) core
  { core with serverIdentity := r.serverIdentity }

/-! ## The prover's calls -/

/-- The steps of which JavaScript is told, with the progress in percent. -/
inductive Progress where
  | setupStarted
  | setupDone
  | connecting
  | sending
  | requestComplete
  | revealing
  | finalized
  deriving DecidableEq, Repr

/-- crates/wasm/src/prover/mod.rs:63-147 The `step` and a hundred times the `progress` of each event. -/
def Progress.json : Progress → String × Nat
  | .setupStarted => ("MPC_SETUP", 10)
  | .setupDone => ("MPC_SETUP", 20)
  | .connecting => ("CONNECTING_TO_SERVER", 30)
  | .sending => ("SENDING_REQUEST", 40)
  | .requestComplete => ("REQUEST_COMPLETE", 50)
  | .revealing => ("REVEAL", 70)
  | .finalized => ("FINALIZED", 95)

/-- The calls of the class `Prover`; `serverIo`: whether a channel is given. -/
inductive JsCall where
  | setProgressCallback
  | setup (e : Ext Unit)
  | sendRequest (serverIo : Bool) (e : Ext Transcript)
  | transcript
  | reveal (r : JsReveal) (c : Option JsCommit) (order : List CommitEntry → List CommitEntry)
      (e : ProveConfig → Ext ProverOutput)

/-- What a call gives to JavaScript: the answer of the SDK (errors become exceptions), or its own exception. -/
inductive JsReply where
  | sdk (r : PReply)
  | refused
  | set

/-- crates/wasm/src/prover/mod.rs:23-26 `JsProver` -/
structure JsProver where
  inner : PState
  callback : Bool

/-- crates/wasm/src/prover/mod.rs:156-166 `emit_progress` -/
def JsProver.emit (p : JsProver) (e : Progress) : List Progress := if p.callback then [e] else []

/-- The call returned without an error. -/
def isOk : PReply → Bool
  | .ok => true
  | .transcript _ => true
  | .output _ => true
  | .err _ => false
  | .dropped => false

/-- crates/wasm/src/prover/mod.rs:50-152 The calls: the new state, what the callback was told, and the answer. -/
def JsProver.call (c : SdkProverConfig) (p : JsProver) : JsCall → JsProver × List Progress × JsReply
  | .setProgressCallback => ({ p with callback := true }, [], .set)
  | .setup e =>
    let out := Sdk.proverCall c p.inner (.setup e)
    ({ p with inner := out.1 }, p.emit .setupStarted ++ (if isOk out.2 then p.emit .setupDone else []), .sdk out.2)
  | .sendRequest serverIo e =>
    let before := p.emit .connecting ++ p.emit .sending
    match c.mode, serverIo with
    | .mpc, true =>
      let out := Sdk.proverCall c p.inner (.sendMpc e)
      ({ p with inner := out.1 }, before ++ (if isOk out.2 then p.emit .requestComplete else []), .sdk out.2)
    | .mpc, false => (p, before, .refused)
    | .proxy, false =>
      let out := Sdk.proverCall c p.inner (.sendProxy e)
      ({ p with inner := out.1 }, before ++ (if isOk out.2 then p.emit .requestComplete else []), .sdk out.2)
    | .proxy, true => (p, before, .refused)
  | .transcript =>
    let out := Sdk.proverCall c p.inner .transcript
    ({ p with inner := out.1 }, [], .sdk out.2)
  | .reveal r commit order e =>
    let out := Sdk.proverCall c p.inner (.reveal (convertReveal r) (commit.map convertCommit) order e)
    ({ p with inner := out.1 }, p.emit .revealing ++ (if isOk out.2 then p.emit .finalized else []), .sdk out.2)

/-- crates/wasm/src/prover/mod.rs:32-40 `new`, then the calls. -/
def runJs (c : SdkProverConfig) (calls : List JsCall) : JsProver × List (JsCall × List Progress × JsReply) :=
  Sdk.runCalls (JsProver.call c) ⟨.initialized, false⟩ calls

/-- crates/wasm/src/prover/mod.rs:32-40 `new` -/
def newJsProver (R : Reads) (c : JsProverConfig) : Option CoreProverConfig :=
  match convertProverConfig R c with
  | .error _ => none
  | .ok core => if core.machine.accepted then some core else none

end Tlsn.Wasm
