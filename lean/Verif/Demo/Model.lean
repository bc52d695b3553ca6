import Verif.Protocol.EndToEnd
import Verif.Protocol.Redacted
import Verif.AgeExample.Props

/-!
# Model of the verifiers of crates/examples

What a user builds on top of the library: the verifiers of crates/examples/basic/basic.rs and crates/examples/proxy/proxy.rs, and the
verifier of presentations, crates/examples/attestation/verify.rs.  Validity of UTF-8 (`String::from_utf8`) is a parameter.
-/

namespace Tlsn.Demo

open Age (domain contains)

/-- crates/examples/basic/basic.rs:32 `MAX_SENT_DATA`. -/
def maxSentData : Nat := 1 <<< 12

/-- crates/examples/basic/basic.rs:34 `MAX_RECV_DATA`. -/
def maxRecvData : Nat := 1 <<< 14

/-- The bytes of "Herman Melville", crates/examples/basic/basic.rs:274. -/
def author : Bytes := [72, 101, 114, 109, 97, 110, 32, 77, 101, 108, 118, 105, 108, 108, 101]

/-- The errors of the verifiers: the proposal was not accepted, the request was rejected, or the library failed. -/
inductive DemoError where
  | proposal | rejected | library
  deriving DecidableEq, Repr

/-- crates/examples/basic/basic.rs:260-281 and crates/examples/proxy/proxy.rs:249-270: the checks of the output; all of them panic. -/
def checkOutput (utf8 : Bytes → Bool) (out : VerifierOutput) : Outcome DemoError PartialTranscript :=
  match out.serverName, out.transcript with
  | some name, some t =>
    if utf8 t.sent = false then .panic
    else if contains t.sent domain = false then .panic
    else if utf8 t.received = false then .panic
    else if contains t.received author = false then .panic
    else if name ≠ domain then .panic
    else .ok t
  | _, _ => .panic

/-- crates/examples/basic/basic.rs:234-281 and crates/examples/proxy/proxy.rs:223-270: the verifier, once it is committed.  `msg` is what the
prover sends (`none`: the channel fails); the request must ask for the identity of the server. -/
def afterCommit (utf8 : Bytes → Bool) (env : Protocol.Env) (vm : ZkVm) :
    Option Protocol.ProveMsg → Outcome DemoError PartialTranscript
  | none => .err .library
  | some msg =>
    if msg.request.serverIdentity = false then .err .rejected
    else
      match ((Protocol.VState.committed vm).run env [.verify (some msg), .accept true]).2 with
      | [_, .output out] => checkOutput utf8 out
      | [_, .panicked] => .panic
      | _ => .err .library

/-- crates/examples/basic/basic.rs:207-281: the verifier, for the prover's proposal and its message after the commitment protocol,
whose result for an accepted configuration is `run` (`none`: it fails). -/
def basicVerifier {P : Type} (show_ : Protocol.Version → Protocol.Version → String) (own : Protocol.Version) (utf8 : Bytes → Bool)
    (run : MpcTlsConfig → Option (Protocol.Env × ZkVm)) (proposal : Option (Protocol.CommitMsg MpcTlsConfig P))
    (msg : Option Protocol.ProveMsg) : Outcome DemoError PartialTranscript :=
  match (Protocol.verifierCommit show_ own proposal).1 with
  | .start (.mpc c) =>
    if c.maxSentData > maxSentData then .err .proposal
    else if c.maxRecvData > maxRecvData then .err .proposal
    else
      match run c with
      | none => .err .library
      | some (env, vm) => afterCommit utf8 env vm msg
  | .start (.proxy _) => .err .proposal
  | _ => .err .library

/-- crates/examples/proxy/proxy.rs:206-270: the verifier that accepts both modes. -/
def proxyVerifier {M P : Type} (show_ : Protocol.Version → Protocol.Version → String) (own : Protocol.Version) (utf8 : Bytes → Bool)
    (run : Protocol.TlsCommitConfig M P → Option (Protocol.Env × ZkVm)) (proposal : Option (Protocol.CommitMsg M P))
    (msg : Option Protocol.ProveMsg) : Outcome DemoError PartialTranscript :=
  match (Protocol.verifierCommit show_ own proposal).1 with
  | .start c =>
    match run c with
    | none => .err .library
    | some (env, vm) => afterCommit utf8 env vm msg
  | _ => .err .library

/-- What crates/examples/attestation/verify.rs:84-93 prints: the time, the name, and the data before `from_utf8_lossy`. -/
structure Shown where
  time : Nat
  name : ServerName
  sent : Bytes
  received : Bytes

/-- crates/examples/attestation/verify.rs:66-93: the presentation is verified, the unauthenticated bytes are set to `X`. -/
def showPresentation (checked : Bool) (v : CryptoProvider) (p : Presentation) : Option Shown :=
  match p.verify checked v with
  | .ok out =>
    match out.serverName, out.transcript with
    | some name, some t =>
      match t.setUnauthed 88 with
      | some q => some ⟨out.connectionInfo.time, name, q.sent, q.received⟩
      | none => none
    | _, _ => none
  | _ => none

end Tlsn.Demo
