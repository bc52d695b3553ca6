import Verif.Auth.Model
import Verif.Config.Model
import Verif.Attestation.Model

/-!
# Model of commit/hash.rs, verifier/verify.rs and prover/prove.rs

Paths are relative to crates/tlsn/src: transcript_internal/commit/hash.rs, verifier/verify.rs,
prover/prove.rs.  Messages and `execute_all` are not modelled: the VM is ideal.
-/

namespace Tlsn

/-- The hash circuits that are compiled in (crates/tlsn/src/transcript_internal/commit/hash.rs:148-225): SHA-256 always, BLAKE3 and Keccak-256
with their features.  All of them output 32 bytes; `none` is `UnsupportedAlg`. -/
abbrev HashCircuits := HashAlgId → Option (Bytes → Vector Byte 32)

/-- crates/tlsn/src/transcript_internal/commit/hash.rs:259-272 `ErrorRepr`; a 32-byte output always converts to a hash, and decodings are
available, so `Convert` and `Decode` do not occur. -/
inductive HashCommitError where
  | vm
  | unsupportedAlg
  deriving DecidableEq, Repr

/-- An element of the output of `hash_commit_inner`. -/
structure HashOut where
  direction : Direction
  idx : RangeSet
  alg : HashAlgId
  hash : VmVec
  blinder : VmVec

/-- crates/tlsn/src/transcript_internal.rs:13-16 `TranscriptRefs`. -/
structure TranscriptRefs where
  sent : RangeMap
  recv : RangeMap

/-- crates/tlsn/src/transcript_internal/commit/hash.rs:158-161 (and 180-183, 206-209): the references of a direction. -/
def TranscriptRefs.of (r : TranscriptRefs) : Direction → RangeMap
  | .sent => r.sent
  | .received => r.recv

/-- The blinder of one commitment: allocated and marked in crates/tlsn/src/transcript_internal/commit/hash.rs:142-146.  The prover (`own`)
assigns it in 74-77, after the circuit was built; the model assigns it here, so that the circuit can be
evaluated when it is built. -/
def allocBlinder (vm : ZkVm) : Option Blinder → Outcome HashCommitError (ZkVm × VmVec)
  | none => .ok ((vm.alloc 16).1.mark (vm.alloc 16).2 .blind, (vm.alloc 16).2)
  | some b => match ((vm.alloc 16).1.mark (vm.alloc 16).2 .priv).assign (vm.alloc 16).2 b.toList with
    | none => .err .vm
    | some vm' => .ok (vm', (vm.alloc 16).2)

/-- The hash of one commitment (crates/tlsn/src/transcript_internal/commit/hash.rs:148-225): the ranges in order, then the blinder.  The
hasher's own VM operations are one operation.  `panic` is the failed `expect("plaintext refs are valid")`. -/
def hashOne (hc : HashCircuits) (vm : ZkVm) (refs : RangeMap) (idx : RangeSet) (alg : HashAlgId)
    (blinder : VmVec) : Outcome HashCommitError (ZkVm × VmVec) :=
  match hc alg with
  | none => .err .unsupportedAlg
  | some f => match idx.ranges.mapM refs.get with
    | none => .panic
    | some vs => .ok (vm.call (.hash alg (vs ++ [blinder])) (f ((vs ++ [blinder]).flatMap vm.read)).toList)

/-- crates/tlsn/src/transcript_internal/commit/hash.rs:124-231 `hash_commit_inner`.  `own n` is the prover's blinder for the commitment with
number `n`; the verifier has none. -/
def hashCommitInner (hc : HashCircuits) (own : Nat → Option Blinder) (refs : TranscriptRefs) :
    Nat → List (Direction × RangeSet × HashAlgId) → ZkVm → Outcome HashCommitError (ZkVm × List HashOut)
  | _, [], vm => .ok (vm, [])
  | n, (d, idx, alg) :: rest, vm => do
    let (vm, b) ← allocBlinder vm (own n)
    let (vm, h) ← hashOne hc vm (refs.of d) idx alg b
    let (vm, t) ← hashCommitInner hc own refs (n + 1) rest vm
    pure (vm, ⟨d, idx, alg, h, b⟩ :: t)

/-- crates/tlsn/src/transcript_internal/commit/hash.rs:39-61 `HashCommitFuture::try_recv` on the decoded hashes. -/
def hashOutputs (outs : List HashOut) (hashes : List Bytes) : List PlaintextHash :=
  (outs.zip hashes).map fun p => ⟨p.1.direction, p.1.idx, ⟨p.1.alg, p.2⟩⟩

/-- crates/tlsn/src/transcript_internal/commit/hash.rs:93-111 `verify_hash`, with the values its future resolves to. -/
def verifyHash (hc : HashCircuits) (vm : ZkVm) (refs : TranscriptRefs)
    (idxs : List (Direction × RangeSet × HashAlgId)) :
    Outcome HashCommitError (ZkVm × List PlaintextHash) := do
  let (vm, outs) ← hashCommitInner hc (fun _ => none) refs 0 idxs vm
  let d := decodeAll vm (outs.map (·.hash))
  pure (d.1, hashOutputs outs d.2)

/-- The secrets of `prove_hash` (crates/tlsn/src/transcript_internal/commit/hash.rs:82-87). -/
def hashSecrets (blinders : Nat → Blinder) (outs : List HashOut) : List PlaintextHashSecret :=
  outs.mapIdx fun n o => ⟨o.direction, o.idx, o.alg, blinders n⟩

/-- crates/tlsn/src/transcript_internal/commit/hash.rs:63-91 `prove_hash`; `blinders` are the values of `rand::random()`. -/
def proveHash (hc : HashCircuits) (blinders : Nat → Blinder) (vm : ZkVm) (refs : TranscriptRefs)
    (idxs : List (Direction × RangeSet × HashAlgId)) :
    Outcome HashCommitError (ZkVm × List PlaintextHash × List PlaintextHashSecret) := do
  let (vm, outs) ← hashCommitInner hc (fun n => some (blinders n)) refs 0 idxs vm
  let d := decodeAll vm (outs.map (·.hash))
  pure (d.1, hashOutputs outs d.2, hashSecrets blinders outs)

/-- `SessionKeys` (crates/mpc-tls/src/lib.rs) as references into the VM. -/
structure KeyRefs where
  clientKey : VmVec
  clientIv : VmVec
  serverKey : VmVec
  serverIv : VmVec

/-- What `verify` and `prove` read of the `TlsTranscript`.  `binding = none` stands for a certificate
binding that is not `V1_2` (the enum is non-exhaustive). -/
structure SessionView where
  sent : List Record
  recv : List Record
  time : Nat
  binding : Option ServerEphemKey

/-- crates/tlsn/src/verifier/verify.rs:105-110, 123-128 and crates/tlsn/src/prover/prove.rs:49-52, 66-69: the application data records. -/
def appRecords (rs : List Record) : List Record := rs.filter fun r => decide (r.typ = .applicationData)

/-- crates/tlsn/src/verifier/verify.rs:191-200 `collect_ciphertext`. -/
def collectCiphertext (rs : List Record) : Bytes :=
  (rs.filter fun r => decide (r.typ = .applicationData)).flatMap (·.ciphertext)

/-- The error sites of `verify` and `prove` (crates/tlsn/src/verifier/verify.rs:36-189, crates/tlsn/src/prover/prove.rs:53-113). -/
inductive ProvingError where
  | missingTranscript
  | lengthMismatch
  | sentAuthMismatch
  | recvAuthMismatch
  | bindingVersion
  | certificate (e : HandshakeError)
  | sentSetup (e : AuthError)
  | recvSetup (e : AuthError)
  | hashSetup (e : HashCommitError)
  | sentProof (e : AuthError)
  | recvProof (e : AuthError)
  deriving DecidableEq, Repr

/-- `.map_err(..)?`. -/
def mapErr {α ε δ : Type} (f : ε → δ) : Outcome ε α → Outcome δ α
  | .ok a => .ok a
  | .err e => .err (f e)
  | .panic => .panic

/-- crates/tlsn/src/verifier/verify.rs:91-99 and crates/tlsn/src/prover/prove.rs:33-41: the union of the committed ranges of each direction. -/
def commitSets : List (Direction × RangeSet × HashAlgId) → RangeSet × RangeSet → RangeSet × RangeSet
  | [], acc => acc
  | (.sent, idx, _) :: t, acc => commitSets t (acc.1.union idx, acc.2)
  | (.received, idx, _) :: t, acc => commitSets t (acc.1, acc.2.union idx)

/-- The requested commitments. -/
def ProveRequest.hashes (r : ProveRequest) : List (Direction × RangeSet × HashAlgId) :=
  match r.transcriptCommit with
  | none => []
  | some c => c.hash

/-- crates/tlsn/src/verifier/verify.rs:35-63: the transcript that is checked. -/
def chooseTranscript (cs cr : Bytes) (request : ProveRequest) (transcript : Option PartialTranscript) :
    Outcome ProvingError PartialTranscript :=
  match request.reveal with
  | none => .ok (PartialTranscript.new cs.length cr.length)
  | some (authSent, authRecv) => match transcript with
    | none => .err .missingTranscript
    | some t =>
      if t.sent.length ≠ cs.length ∨ t.received.length ≠ cr.length then .err .lengthMismatch
      else if t.sentAuthed ≠ authSent then .err .sentAuthMismatch
      else if t.receivedAuthed ≠ authRecv then .err .recvAuthMismatch
      else .ok t

/-- crates/tlsn/src/verifier/verify.rs:65-89: the server name. -/
def checkIdentity (v : CertVerifier) (tls : SessionView) (handshake : Option (ServerName × HandshakeData)) :
    Outcome ProvingError (Option ServerName) :=
  match handshake with
  | none => .ok none
  | some (name, data) => match tls.binding with
    | none => .err .bindingVersion
    | some key => match data.verify v tls.time key name with
      | .error e => .err (.certificate e)
      | .ok () => .ok (some name)

/-- crates/core/src/lib.rs:52-59 `VerifierOutput`. -/
structure VerifierOutput where
  serverName : Option ServerName
  transcript : Option PartialTranscript
  commitments : List PlaintextHash

/-- crates/tlsn/src/verifier/verify.rs:143-155 with the later `try_recv`: the hash commitments, if any are requested. -/
def verifyCommitments (hc : HashCircuits) (vm : ZkVm) (refs : TranscriptRefs) (request : ProveRequest) :
    Outcome ProvingError (ZkVm × List PlaintextHash) :=
  match request.transcriptCommit with
  | none => .ok (vm, [])
  | some c => if c.hasHash then mapErr .hashSetup (verifyHash hc vm refs c.hash) else .ok (vm, [])

/-- crates/tlsn/src/verifier/verify.rs:22-189 `verify`, with the final VM. -/
def verifySession (aes : AesFn) (hc : HashCircuits) (e : Bool) (certs : CertVerifier) (vm : ZkVm)
    (keys : KeyRefs) (tls : SessionView) (request : ProveRequest)
    (handshake : Option (ServerName × HandshakeData)) (transcript : Option PartialTranscript) :
    Outcome ProvingError (ZkVm × VerifierOutput) := do
  let cs := collectCiphertext tls.sent
  let cr := collectCiphertext tls.recv
  let t ← chooseTranscript cs cr request transcript
  let name ← checkIdentity certs tls handshake
  let commit := commitSets request.hashes (∅, ∅)
  let (vm, sentRefs, sentProof) ← mapErr .sentSetup
    (verifyPlaintext aes e vm keys.clientKey keys.clientIv t.sent cs (appRecords tls.sent) t.sentAuthed commit.1)
  let (vm, recvRefs, recvProof) ← mapErr .recvSetup
    (verifyPlaintext aes e vm keys.serverKey keys.serverIv t.received cr (appRecords tls.recv) t.receivedAuthed
      commit.2)
  let (vm, commitments) ← verifyCommitments hc vm ⟨sentRefs, recvRefs⟩ request
  mapErr .sentProof (sentProof.verify aes)
  mapErr .recvProof (recvProof.verify aes)
  pure (vm, ⟨name, if request.reveal.isSome then some t else none, commitments⟩)

/-- crates/core/src/lib.rs:41-46 `ProverOutput`. -/
structure ProverOutput where
  commitments : List PlaintextHash
  secrets : List PlaintextHashSecret

/-- crates/tlsn/src/prover/prove.rs:80-99 with 107-121. -/
def proveCommitments (hc : HashCircuits) (blinders : Nat → Blinder) (vm : ZkVm) (refs : TranscriptRefs)
    (config : ProveConfig) : Outcome ProvingError (ZkVm × ProverOutput) :=
  match config.transcriptCommit with
  | none => .ok (vm, ⟨[], []⟩)
  | some c =>
    if c.hasHash then do
      let (vm, cs, ss) ← mapErr .hashSetup (proveHash hc blinders vm refs c.toRequest.hash)
      let pairs := cs.zip ss
      pure (vm, ⟨pairs.map (·.1), pairs.map (·.2)⟩)
    else .ok (vm, ⟨[], []⟩)

/-- crates/tlsn/src/prover/prove.rs:19-124 `prove`, with the final VM. -/
def proveSession (aes : AesFn) (hc : HashCircuits) (e : Bool) (blinders : Nat → Blinder) (vm : ZkVm)
    (keys : KeyRefs) (transcript : Transcript) (tls : SessionView) (config : ProveConfig) :
    Outcome ProvingError (ZkVm × ProverOutput) := do
  let reveal := config.reveal.getD (∅, ∅)
  let commit := commitSets config.toRequest.hashes (∅, ∅)
  let (vm, sentRefs) ← mapErr .sentSetup
    (provePlaintext aes e vm keys.clientKey keys.clientIv transcript.sent (appRecords tls.sent) reveal.1 commit.1)
  let (vm, recvRefs) ← mapErr .recvSetup
    (provePlaintext aes e vm keys.serverKey keys.serverIv transcript.received (appRecords tls.recv) reveal.2
      commit.2)
  proveCommitments hc blinders vm ⟨sentRefs, recvRefs⟩ config

/-- crates/tlsn/src/prover.rs:541-567: the message of the prover.  `chain` are the certificate chain and the
server signature of the transcript, with its binding. -/
def proveRequestMsg (config : ProveConfig) (name : ServerName) (data : HandshakeData) (transcript : Transcript) :
    Option (ProveRequest × Option (ServerName × HandshakeData) × Option PartialTranscript) :=
  match config.reveal with
  | none => some (config.toRequest, if config.serverIdentity then some (name, data) else none, none)
  | some r => (transcript.toPartial r.1 r.2).map fun p =>
    (config.toRequest, if config.serverIdentity then some (name, data) else none, some p)

end Tlsn
