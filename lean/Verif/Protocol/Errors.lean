import Verif.Protocol.Model

/-! # The errors that the users of a prover and of a verifier are given

The model of `Verif/Protocol/Model.lean` says whether a call fails.  Here the same calls return the error that the
user sees: its kind, its message and the text of its source. -/

namespace Tlsn.Protocol

/-- crates/tlsn/src/error.rs:140-146 `ErrorKind` -/
inductive ErrorKind where
  | user
  | io
  | internal
  | config
deriving DecidableEq, Repr

/-- crates/tlsn/src/error.rs:16-21 `Error`; of the source only its text is kept. -/
structure Error where
  kind : ErrorKind
  msg : Option String
  source : Option String
deriving DecidableEq, Repr

/-- crates/tlsn/src/error.rs:69-72 with 149-151 `is_user` -/
def Error.isUser (e : Error) : Bool := match e.kind with | .user => true | _ => false

/-- crates/tlsn/src/error.rs:74-77 with 153-155 `is_io` -/
def Error.isIo (e : Error) : Bool := match e.kind with | .io => true | _ => false

/-- crates/tlsn/src/error.rs:79-82 with 157-159 `is_internal` -/
def Error.isInternal (e : Error) : Bool := match e.kind with | .internal => true | _ => false

/-- crates/tlsn/src/error.rs:84-87 with 161-163 `is_config` -/
def Error.isConfig (e : Error) : Bool := match e.kind with | .config => true | _ => false

/-- crates/tlsn/src/error.rs:97-102: the text of the kind. -/
def ErrorKind.text : ErrorKind → String
  | .user => "user error"
  | .io => "io error"
  | .internal => "internal error"
  | .config => "config error"

/-- crates/tlsn/src/error.rs:95-114 `Display` -/
def Error.display (e : Error) : String :=
  e.kind.text ++ (match e.msg with | some m => ": " ++ m | none => "") ++
    (match e.source with | some s => " caused by: " ++ s | none => "")

/-- crates/tlsn/src/msg.rs:43-53 `RejectionReason` and its `Display` -/
def reasonText : Option String → String
  | some m => m
  | none => "no reason provided"

/-- The outcome of sending a message, or of the exchange of messages of the zero-knowledge VM: `some text` is a
failure with this text. -/
abbrev Sent := Option String

/-- The outcome of waiting for a message: the message, or the text of the failure. -/
abbrev Received (α : Type) := Except String α

/-! ## Proving -/

/-- The text of the source of an error of the proof.  The library's own error types are formatted by `thiserror`;
the formatting is a parameter. -/
abbrev ShowError := ProvingError → String

/-- crates/tlsn/src/prover/prove.rs:56-60, 73-77 and 91-95: the errors of the prover.  The other sites belong to the
verifier; `prove` does not reach them. -/
def proverError (sh : ShowError) : ProvingError → Error
  | .sentSetup e => ⟨.internal, some "proving failed during sent plaintext commitment", some (sh (.sentSetup e))⟩
  | .recvSetup e => ⟨.internal, some "proving failed during received plaintext commitment", some (sh (.recvSetup e))⟩
  | .hashSetup e => ⟨.internal, some "proving failed during hash commitment setup", some (sh (.hashSetup e))⟩
  | _ => ⟨.internal, none, none⟩

/-- What happens on the channel during a `prove`: to the request, to the answer, and to the execution of the VM. -/
structure ProveIo where
  sent : Sent
  answer : Received Response
  exec : Sent

/-- crates/tlsn/src/prover.rs:527-592 `prove`, with crates/tlsn/src/prover/prove.rs:101-105 for the VM.  The context is always
there (`ctx.as_mut()`), as the state is only built with it.  A proof that fails leaves the VM in a state that is not
modelled. -/
def proveApi (sh : ShowError) (env : Env) (name : ServerName) (hsd : HandshakeData) (data : Transcript) (vp : ZkVm)
    (config : ProveConfig) (blinders : Nat → Blinder) (io : ProveIo) : Option ZkVm × Outcome Error ProverOutput :=
  match proverMsg config name hsd data with
  | none => (none, .panic)
  | some _ =>
    match io.sent with
    | some t => (some vp, .err ⟨.io, some "failed to send prove configuration", some t⟩)
    | none =>
      match io.answer with
      | .error t => (some vp, .err ⟨.io, some "failed to receive prove response from verifier", some t⟩)
      | .ok (.rejected reason) =>
        (some vp, .err ⟨.user, some "proving rejected by verifier", some (reasonText reason)⟩)
      | .ok .ok =>
        match proveSession env.aes env.hc env.e blinders vp env.keys data env.tls config with
        | .err e => (none, .err (proverError sh e))
        | .panic => (none, .panic)
        | .ok (vp', out) =>
          match io.exec with
          | some t => (none, .err ⟨.internal, some "proving failed during zk execution", some t⟩)
          | none => (some vp', .ok out)

/-! ## Verifying -/

/-- crates/tlsn/src/verifier/verify.rs:35-155 and 163-172: the errors of the verifier. -/
def verifierError (sh : ShowError) : ProvingError → Error
  | .missingTranscript => ⟨.internal,
      some "verification failed: prover requested to reveal data but did not send transcript", none⟩
  | .lengthMismatch => ⟨.internal, some "verification failed: transcript length mismatch", none⟩
  | .sentAuthMismatch => ⟨.internal, some "verification failed: sent auth data mismatch", none⟩
  | .recvAuthMismatch => ⟨.internal, some "verification failed: received auth data mismatch", none⟩
  | .bindingVersion => ⟨.internal, some "verification failed: unsupported cert binding version", none⟩
  | .certificate e => ⟨.internal, some "verification failed: certificate verification failed",
      some (sh (.certificate e))⟩
  | .sentSetup e => ⟨.internal, some "verification failed during sent plaintext verification",
      some (sh (.sentSetup e))⟩
  | .recvSetup e => ⟨.internal, some "verification failed during received plaintext verification",
      some (sh (.recvSetup e))⟩
  | .hashSetup e => ⟨.internal, some "verification failed during hash commitment setup", some (sh (.hashSetup e))⟩
  | .sentProof e => ⟨.internal, some "verification failed: sent plaintext proof invalid", some (sh (.sentProof e))⟩
  | .recvProof e => ⟨.internal, some "verification failed: received plaintext proof invalid",
      some (sh (.recvProof e))⟩

/-- Whether this check is made only after the VM was executed (crates/tlsn/src/verifier/verify.rs:157-172). -/
def afterExecution : ProvingError → Bool
  | .sentProof _ => true
  | .recvProof _ => true
  | _ => false

/-- crates/tlsn/src/verifier/verify.rs:157-161: the error of the VM. -/
def execError (t : String) : Error := ⟨.internal, some "verification failed during zk execution", some t⟩

/-- The calls of the user of the verifier, with what happens on the channel. -/
inductive VApiCall where
  | verify (msg : Received ProveMsg)
  | accept (sent exec : Sent)
  | reject (reason : Option String) (sent : Sent)

/-- What a successful call gives. -/
inductive VOk where
  | request (r : ProveRequest)
  | output (o : VerifierOutput)
  | rejected

/-- The outcome of crates/tlsn/src/verifier/verify.rs:22-189 `verify`, where the VM may fail. -/
def acceptResult (sh : ShowError) (exec : Sent) : Outcome ProvingError (ZkVm × VerifierOutput) →
    VState × Outcome Error VOk
  | .panic => (.gone, .panic)
  | .err e =>
    match exec with
    | some t => if afterExecution e then (.gone, .err (execError t)) else (.gone, .err (verifierError sh e))
    | none => (.gone, .err (verifierError sh e))
  | .ok (vm', out) =>
    match exec with
    | some t => (.gone, .err (execError t))
    | none => (.committed vm', .ok (.output out))

/-- crates/tlsn/src/verifier.rs:418-454 `verify`, 470-521 `accept`, 523-554 `reject`, with the answer that is sent; `none` for
a call that does not exist in this state.  `badRoots` is the text of the failure to build the certificate verifier. -/
def VState.api (sh : ShowError) (badRoots : String) (env : Env) :
    VState → VApiCall → VState × Option (Outcome Error VOk) × Option Response
  | .committed vm, .verify (.ok msg) => (.verifying vm msg, some (.ok (.request msg.request)), none)
  | .committed _, .verify (.error t) =>
    (.gone, some (.err ⟨.io, some "verification failed to receive prove request", some t⟩), none)
  | .verifying _ _, .accept (some t) _ =>
    (.gone, some (.err ⟨.io, some "verification failed to send acceptance", some t⟩), none)
  | .verifying vm msg, .accept none exec =>
    match env.certs with
    | none =>
      (.gone, some (.err ⟨.config, some "failed to create certificate verifier", some badRoots⟩), some .ok)
    | some certs =>
      let r := acceptResult sh exec
        (verifySession env.aes env.hc env.e certs vm env.keys env.tls msg.request msg.handshake msg.transcript)
      (r.1, some r.2, some .ok)
  | .verifying _ _, .reject _ (some t) =>
    (.gone, some (.err ⟨.io, some "verification failed to send rejection", some t⟩), none)
  | .verifying vm _, .reject reason none => (.committed vm, some (.ok .rejected), some (.rejected reason))
  | s, _ => (s, none, none)

/-! ## The start of the commitment protocol -/

/-- A failure of the setup: crates/tlsn/src/deps/prover.rs:105-125 and 171-178, crates/tlsn/src/deps/verifier.rs:103-123
and 177-184. -/
inductive SetupFailure where
  | mpcAlloc (text : String)
  | mpcPreprocess (text : String)
  | proxyAlloc (msg : Option String) (text : Option String)
  | proxyPreprocess (text : String)
deriving DecidableEq, Repr

/-- The error of a failed setup: crates/tlsn/src/deps/prover.rs:106-110 and 118-122 (the same in crates/tlsn/src/deps/verifier.rs),
crates/tlsn/src/proxy.rs:56-110, crates/tlsn/src/proxy/prover.rs:48-54 and crates/tlsn/src/proxy/verifier.rs:44-50. -/
def SetupFailure.error : SetupFailure → Error
  | .mpcAlloc t => ⟨.internal, some "commitment protocol failed to allocate mpc-tls resources", some t⟩
  | .mpcPreprocess t => ⟨.internal, some "commitment protocol failed during mpc-tls preprocessing", some t⟩
  | .proxyAlloc m t => ⟨.internal, m, t⟩
  | .proxyPreprocess t => ⟨.internal, some "preprocessing proxy-tls failed", some t⟩

/-- crates/tlsn/src/prover.rs:94-147 `commit`: the configuration whose setup is complete, or the error. -/
def proverCommitApi {M P : Type} (config : TlsCommitConfig M P) (sent : Sent) (answer : Received Response)
    (setup : Option SetupFailure) : Outcome Error (TlsCommitConfig M P) :=
  match sent with
  | some t => .err ⟨.io, some "commitment protocol failed to send request", some t⟩
  | none =>
    match answer with
    | .error t => .err ⟨.io, some "commitment protocol failed to receive response", some t⟩
    | .ok (.rejected reason) =>
      .err ⟨.user, some "commitment protocol rejected by verifier", some (reasonText reason)⟩
    | .ok .ok =>
      match setup with
      | some f => .err f.error
      | none => .ok config

/-- crates/tlsn/src/verifier.rs:87-90: the text of a version mismatch, with the formatting of a version. -/
def mismatchText (sv : Version → String) (theirs own : Version) : String :=
  "prover version does not match with verifier: " ++ sv theirs ++ " != " ++ sv own

/-- crates/tlsn/src/verifier.rs:74-130 `commit`, with the answer that is sent.  There are two variants of the configuration, so
"unknown protocol requested" does not occur. -/
def verifierCommitApi {M P : Type} (sv : Version → String) (own : Version) (msg : Received (CommitMsg M P))
    (sent : Sent) : Outcome Error (TlsCommitConfig M P) × Option Response :=
  match msg with
  | .error t => (.err ⟨.io, some "commitment protocol failed to receive request", some t⟩, none)
  | .ok msg =>
    if msg.version ≠ own then
      match sent with
      | some t => (.err ⟨.io, some "commitment protocol failed to send version mismatch response", some t⟩, none)
      | none => (.err ⟨.config, some (mismatchText sv msg.version own), none⟩,
          some (.rejected (some (mismatchText sv msg.version own))))
    else (.ok msg.config, none)

/-- crates/tlsn/src/verifier.rs:144-173 `accept` -/
def verifierAcceptApi {M P : Type} (config : TlsCommitConfig M P) (sent : Sent) (setup : Option SetupFailure) :
    Outcome Error (TlsCommitConfig M P) × Option Response :=
  match sent with
  | some t => (.err ⟨.io, some "commitment protocol failed to send acceptance", some t⟩, none)
  | none =>
    match setup with
    | some f => (.err f.error, some .ok)
    | none => (.ok config, some .ok)

/-- crates/tlsn/src/verifier.rs:175-190 `reject` -/
def verifierRejectApi (reason : Option String) (sent : Sent) : Outcome Error Unit × Option Response :=
  match sent with
  | some t => (.err ⟨.io, some "commitment protocol failed to send rejection", some t⟩, none)
  | none => (.ok (), some (.rejected reason))

end Tlsn.Protocol
