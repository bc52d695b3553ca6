import Verif.Attestation.Model
import Verif.Merkle.Spec

/-! # Specification vocabulary for attestations -/

namespace Tlsn

/-- The domain separators are 16 bytes long and pairwise different (they are truncated BLAKE3 hashes of
different type names, crates/attestation/src/serialize.rs:36-44). -/
def DomainsOk (dom : Domains) : Prop :=
  (∀ t, (dom t).length = 16) ∧ ∀ t u, dom t = dom u → t = u

/-- The numbers in a field's data fit their Rust types. -/
def FieldData.Representable : FieldData → Prop
  | .connectionInfo c => c.time < 2 ^ 64 ∧ c.transcriptLength.sent < 2 ^ 32 ∧
      c.transcriptLength.received < 2 ^ 32
  | .commitment c => ∀ r ∈ c.idx.ranges, r.1 < 2 ^ 64 ∧ r.2 < 2 ^ 64
  | _ => True

/-- All fields of the body fit their Rust types. -/
def Body.Representable (b : Body) : Prop := ∀ f ∈ b.fields, f.2.Representable

/-- Everything `b` says is also said by `a`: the four single fields are equal, the extensions and
transcript commitments of `b` are among those of `a`. -/
structure SaidBy (b a : Body) : Prop where
  verifyingKey : b.verifyingKey.data = a.verifyingKey.data
  connectionInfo : b.connectionInfo.data = a.connectionInfo.data
  serverEphemeralKey : b.serverEphemeralKey.data = a.serverEphemeralKey.data
  certCommitment : b.certCommitment.data = a.certCommitment.data
  extensions : ∀ e ∈ b.extensions, e.data ∈ a.extensions.map (·.data)
  transcriptCommitments : ∀ e ∈ b.transcriptCommitments, e.data ∈ a.transcriptCommitments.map (·.data)

/-- The number of fields of a body. -/
def Body.fieldCount (b : Body) : Nat := 4 + b.extensions.length + b.transcriptCommitments.length

/-- Signatures of the signers in `c` are accepted by the verifiers in `v`. -/
def SignaturesAccepted (c v : CryptoProvider) : Prop :=
  ∀ alg s m sig, c.signer alg = some s → s.sign m = some sig →
    ∃ sv, v.signature sig.alg = some sv ∧ sv s.verifyingKey m sig.data = true

/-- Nobody can make the verifiers in `c` accept a message under the key `k` other than the serialized
headers in `signed`. -/
def OnlySigned (c : CryptoProvider) (k : VerifyingKey) (signed : List Header) : Prop :=
  ∀ alg sv m sig, c.signature alg = some sv → sv k m sig = true → ∃ hd ∈ signed, m = hd.bcs

/-- What a notary does: it accepts a request under its configuration, sets fields with any sequence of
calls, and builds the attestation `a` with the identifier `uid`. -/
def NotaryBuilds (c : CryptoProvider) (config : AttestationConfig) (r : Request)
    (ops : List AttBuilderOp) (uid : Vector Byte 16) (a : Attestation) : Prop :=
  ∃ s, acceptRequest config r = .ok s ∧ (ops.foldl SignState.apply s).build c uid = .ok a

/-- The last argument given to one kind of setter. -/
def lastSet {α : Type} (f : AttBuilderOp → Option α) (ops : List AttBuilderOp) : Option α :=
  (ops.filterMap f).getLast?

/-- The argument of a `connection_info` call. -/
def AttBuilderOp.getConnectionInfo : AttBuilderOp → Option ConnectionInfo
  | .connectionInfo c => some c
  | _ => none

/-- The argument of a `server_ephemeral_key` call. -/
def AttBuilderOp.getKey : AttBuilderOp → Option ServerEphemKey
  | .serverEphemeralKey k => some k
  | _ => none

/-- The argument of an `extension` call. -/
def AttBuilderOp.getExtension : AttBuilderOp → Option Extension
  | .extension e => some e
  | _ => none

/-- The argument of a `transcript_commitments` call. -/
def AttBuilderOp.getCommitments : AttBuilderOp → Option (List PlaintextHash)
  | .transcriptCommitments cs => some cs
  | _ => none

end Tlsn
