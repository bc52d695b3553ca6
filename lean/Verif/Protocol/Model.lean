import Verif.Auth.ProveProps

/-! # The statements of a session, one after the other

After the connection the prover may prove any number of statements.  Each is a message, a decision of the user of
the verifier, and the run of the proof if it was accepted. -/

namespace Tlsn.Protocol

/-- crates/tlsn/src/msg.rs:18-23 `ProveRequestMsg` -/
structure ProveMsg where
  request : ProveRequest
  handshake : Option (ServerName × HandshakeData)
  transcript : Option PartialTranscript

/-- crates/tlsn/src/msg.rs:25-40 `Response`, with the `RejectionReason` of a rejection. -/
inductive Response where
  | ok
  | rejected (reason : Option String)
deriving DecidableEq, Repr

/-- What stays the same over a session: the keys and the records of the `Committed` states
(crates/tlsn/src/verifier.rs:456-500, crates/tlsn/src/prover.rs:527-545), the AES and hash circuits, the certificate
verifier of the root store (`none` if it cannot be built, crates/tlsn/src/verifier.rs:491-495) and whether the VM is the one whose
calls are checked. -/
structure Env where
  aes : AesFn
  hc : HashCircuits
  e : Bool
  certs : Option CertVerifier
  keys : KeyRefs
  tls : SessionView

/-! ## The verifier -/

/-- crates/tlsn/src/verifier.rs:412-554: `Verifier<Committed>`, `Verifier<Verify>`; `gone` if a call that took
the verifier has failed. -/
inductive VState where
  | committed (vm : ZkVm)
  | verifying (vm : ZkVm) (msg : ProveMsg)
  | gone

/-- The calls of the user of the verifier.  `verify` with the message that arrives (`none`: the channel fails);
`accept` and `reject` with whether the answer can be sent. -/
inductive VCall where
  | verify (msg : Option ProveMsg)
  | accept (sent : Bool)
  | reject (reason : Option String) (sent : Bool)

/-- What the user of the verifier gets. -/
inductive VResult where
  /-- `Verifier<Verify>`, whose `request()` is this. -/
  | request (r : ProveRequest)
  | output (o : VerifierOutput)
  | rejected
  | failed
  | panicked
  /-- The call does not exist for a verifier in this state (it is not accepted by the compiler). -/
  | noSuchCall

/-- The `verify`, `accept` and `reject` of the verifier, with the answer that is sent to the prover.

crates/tlsn/src/verifier.rs:418-454 `verify`, 470-521 `accept`, 523-554 `reject`.  The context is always there
(`ctx.take()`), as the states are only built with it. -/
def VState.call (env : Env) : VState → VCall → VState × VResult × Option Response
  | .committed vm, .verify (some msg) => (.verifying vm msg, .request msg.request, none)
  | .committed _, .verify none => (.gone, .failed, none)
  | .verifying _ _, .accept false => (.gone, .failed, none)
  | .verifying vm msg, .accept true =>
    match env.certs with
    | none => (.gone, .failed, some .ok)
    | some certs =>
      match verifySession env.aes env.hc env.e certs vm env.keys env.tls msg.request msg.handshake msg.transcript with
      | .ok (vm', out) => (.committed vm', .output out, some .ok)
      | .err _ => (.gone, .failed, some .ok)
      | .panic => (.gone, .panicked, some .ok)
  | .verifying _ _, .reject _ false => (.gone, .failed, none)
  | .verifying vm _, .reject reason true => (.committed vm, .rejected, some (.rejected reason))
  | s, _ => (s, .noSuchCall, none)

/-- A history of calls: the state at its end and what each call gave. -/
def VState.run (env : Env) : VState → List VCall → VState × List VResult
  | s, [] => (s, [])
  | s, c :: cs =>
    let r := s.call env c
    let rest := VState.run env r.1 cs
    (rest.1, r.2.1 :: rest.2)

/-! ## The prover -/

/-- What the user of the prover gets from `prove`. -/
inductive PResult where
  | proved (o : ProverOutput)
  /-- The user error "proving rejected by verifier" with the reason as its source. -/
  | rejected (reason : Option String)
  | failed
  | panicked

/-- The message of the prover.  crates/tlsn/src/prover.rs:541-567; `none`: `to_partial` panics. -/
def proverMsg (config : ProveConfig) (name : ServerName) (hsd : HandshakeData) (data : Transcript) : Option ProveMsg :=
  (proveRequestMsg config name hsd data).map fun m => ⟨m.1, m.2.1, m.2.2⟩

/-- The rest of `prove`, with the answer of the verifier (`none`: the channel fails).
crates/tlsn/src/prover.rs:573-592.  A proof that fails leaves the VM in a state that is not modelled. -/
def proverRest (env : Env) (data : Transcript) (vp : ZkVm) (config : ProveConfig) (blinders : Nat → Blinder) :
    Option Response → Option ZkVm × PResult
  | none => (some vp, .failed)
  | some (.rejected reason) => (some vp, .rejected reason)
  | some .ok =>
    match proveSession env.aes env.hc env.e blinders vp env.keys data env.tls config with
    | .ok (vp', out) => (some vp', .proved out)
    | .err _ => (none, .failed)
    | .panic => (none, .panicked)

/-! ## Both -/

/-- One statement: what the prover is asked to prove, the blinders that are drawn, and what the user of the verifier
decides, which may depend on the request: `none` to accept, or the reason to reject. -/
structure Round where
  config : ProveConfig
  blinders : Nat → Blinder
  decide : ProveRequest → Option (Option String)

/-- The call that the user of the verifier makes. -/
def Round.answer (r : Round) (q : ProveRequest) : VCall :=
  match r.decide q with
  | none => .accept true
  | some reason => .reject reason true

/-- One statement, over a channel that works: the verifier waits for the message in `verify`, its user decides, the
prover gets the answer.  crates/tlsn/src/prover.rs:527-592 with crates/tlsn/src/verifier.rs:418-554. -/
def round (env : Env) (name : ServerName) (hsd : HandshakeData) (data : Transcript) (s : Option ZkVm × VState)
    (r : Round) : (Option ZkVm × VState) × PResult × VResult :=
  match s.1 with
  | none => (s, .failed, .failed)
  | some vp =>
    match proverMsg r.config name hsd data with
    | none => ((none, s.2), .panicked, .failed)
    | some msg =>
      let v₁ := s.2.call env (.verify (some msg))
      let v₂ := v₁.1.call env (r.answer msg.request)
      let p := proverRest env data vp r.config r.blinders v₂.2.2
      ((p.1, v₂.1), p.2, v₂.2.1)

/-- Any number of statements. -/
def rounds (env : Env) (name : ServerName) (hsd : HandshakeData) (data : Transcript) :
    Option ZkVm × VState → List Round → (Option ZkVm × VState) × List (PResult × VResult)
  | s, [] => (s, [])
  | s, r :: rs =>
    let x := round env name hsd data s r
    let rest := rounds env name hsd data x.1 rs
    (rest.1, x.2 :: rest.2)

/-- The answer that the prover of a statement waits for. -/
def Round.response (r : Round) : Response :=
  match r.decide r.config.toRequest with
  | none => .ok
  | some reason => .rejected reason

/-- The VM of the prover after these statements, given the decisions. -/
def proverAfter (env : Env) (data : Transcript) : Option ZkVm → List Round → Option ZkVm
  | none, _ => none
  | some vp, [] => some vp
  | some vp, r :: rs => proverAfter env data (proverRest env data vp r.config r.blinders (some r.response)).1 rs

/-! ## The start of the commitment protocol -/

/-- A semantic version as it is compared: crates/tlsn/src/lib.rs `VERSION`, `semver::Version` with all its fields. -/
structure Version where
  major : Nat
  minor : Nat
  patch : Nat
  pre : String
  build : String
deriving DecidableEq, Repr

/-- crates/core/src/config/tls_commit.rs:9-18 `TlsCommitConfig`; the two configurations are parameters. -/
inductive TlsCommitConfig (M P : Type) where
  | mpc (c : M)
  | proxy (c : P)
deriving DecidableEq, Repr

/-- crates/tlsn/src/msg.rs:12-16 `TlsCommitRequestMsg` -/
structure CommitMsg (M P : Type) where
  config : TlsCommitConfig M P
  version : Version

/-- crates/tlsn/src/prover.rs:104-113: the first message of `commit`. -/
def commitMsg {M P : Type} (own : Version) (config : TlsCommitConfig M P) : CommitMsg M P := ⟨config, own⟩

/-- What the verifier's user gets from `commit`: the mode and the configuration to decide on, or an error. -/
inductive CommitStart (M P : Type) where
  | start (config : TlsCommitConfig M P)
  | versionMismatch
  | failed
deriving DecidableEq, Repr

/-- crates/tlsn/src/verifier.rs:74-130 `commit`, with the answer that is sent.  The text of the rejection is made of
the two versions; `showVersions` is the formatting.  `none`: the channel fails. -/
def verifierCommit {M P : Type} (showVersions : Version → Version → String) (own : Version) :
    Option (CommitMsg M P) → CommitStart M P × Option Response
  | none => (.failed, none)
  | some msg =>
    if msg.version ≠ own then (.versionMismatch, some (.rejected (some (showVersions msg.version own))))
    else (.start msg.config, none)

/-- What a party holds at the end: the setup of its dependencies starts with this configuration. -/
inductive CommitResult (M P : Type) where
  | setup (config : TlsCommitConfig M P)
  | rejected (reason : Option String)
  | failed
deriving DecidableEq, Repr

/-- crates/tlsn/src/verifier.rs:144-173 `accept` and 177-190 `reject`, up to `VerifierDeps::new`. -/
def verifierDecide {M P : Type} (config : TlsCommitConfig M P) : Option (Option String) → CommitResult M P × Response
  | none => (.setup config, .ok)
  | some reason => (.rejected reason, .rejected reason)

/-- crates/tlsn/src/prover.rs:115-133: the answer, up to `ProverDeps::new`. -/
def proverCommit {M P : Type} (config : TlsCommitConfig M P) : Option Response → CommitResult M P
  | none => .failed
  | some .ok => .setup config
  | some (.rejected reason) => .rejected reason

/-- Both parties over a channel that works. -/
def commitBoth {M P : Type} (showVersions : Version → Version → String) (vp vv : Version) (config : TlsCommitConfig M P)
    (decide : TlsCommitConfig M P → Option (Option String)) : CommitResult M P × CommitResult M P :=
  match verifierCommit showVersions vv (some (commitMsg vp config)) with
  | (.start c, _) =>
    let r := verifierDecide c (decide c)
    (proverCommit config (some r.2), r.1)
  | (_, resp) => (proverCommit config resp, .failed)

end Tlsn.Protocol
