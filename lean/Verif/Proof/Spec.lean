import Verif.Proof.Model
import Verif.Transcript.Spec

/-! # Specification vocabulary for transcript proofs -/

namespace Tlsn

/-- `msg` is the list of bytes of `data` at the positions of `idx`, in ascending order. -/
def BytesAt (data : Bytes) (idx : RangeSet) (msg : Bytes) : Prop :=
  msg.map some = idx.values.map fun i => data[i]?

/-- Two different inputs with the same hash. -/
def Collision (h : HashAlg) : Prop := ∃ x y : Bytes, x ≠ y ∧ h.hash x = h.hash y

/-- The provider returns implementations under their own identifier (true of the default provider,
crates/core/src/hash.rs:21-31). -/
def ProviderOk (p : HashProvider) : Prop := ∀ a h, p a = some h → h.id = a

/-- `c` is the commitment an honest party computes for the secret `s` over the transcript `t`. -/
def HonestCommitment (p : HashProvider) (t : Transcript) (s : PlaintextHashSecret)
    (c : PlaintextHash) : Prop :=
  ∃ h msg, p s.alg = some h ∧ BytesAt (t.data s.direction) s.idx msg ∧
    c = ⟨s.direction, s.idx, ⟨h.id, h.hash (msg ++ s.blinder.toList)⟩⟩

/-- A reveal request that must succeed: in bounds and committed byte by byte. -/
def Revealable (t : Transcript) (secrets : List PlaintextHashSecret) (d : Direction)
    (idx : RangeSet) : Prop :=
  (∀ i ∈ idx, i < (t.data d).length) ∧
  (∀ i ∈ idx, ∃ s ∈ secrets, s.direction = d ∧ i ∈ s.idx)

/-- Calls on a proof builder. -/
inductive BuilderOp where
  | reveal (idx : RangeSet) (d : Direction)
  | kinds (ks : List HashAlgId)

/-- One call; failing calls leave whatever state `reveal` returned. -/
def BuilderOp.apply (b : ProofBuilder) : BuilderOp → ProofBuilder
  | .reveal idx d => (b.reveal idx d).1
  | .kinds ks => b.commitmentKinds ks

/-- A history of calls on a fresh builder. -/
def runBuilder (t : Transcript) (secrets : List PlaintextHashSecret) (ops : List BuilderOp) :
    ProofBuilder :=
  ops.foldl BuilderOp.apply (ProofBuilder.new t secrets)

/-- The positions a builder will reveal in a direction. -/
def ProofBuilder.query (b : ProofBuilder) : Direction → RangeSet :=
  bySide b.querySent b.queryRecv

end Tlsn
