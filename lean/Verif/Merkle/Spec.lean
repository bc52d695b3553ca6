import Verif.Merkle.Model
import Verif.Proof.Spec

/-! # Specification vocabulary for Merkle trees -/

namespace Tlsn

/-- The hash function has outputs of `N` bytes. -/
def OutLen (N : Nat) (h : HashAlg) : Prop := ∀ x, (h.hash x).length = N

/-- The leaves of `L` at the given positions, with their positions. -/
def leavesAt (L : List Digest) (idxs : List Nat) : List (Nat × Digest) :=
  idxs.map fun i => (i, L[i]?.getD [])

/-- Strictly increasing positions inside a list of `n` leaves, at least one. -/
def ValidIndices (n : Nat) (idxs : List Nat) : Prop :=
  idxs ≠ [] ∧ idxs.Pairwise (· < ·) ∧ ∀ i ∈ idxs, i < n

/-- A toy hash with 2-byte outputs, for examples: it keeps the first byte and the length. -/
def toyHash : HashAlg := ⟨1, fun x => [x.headD 0, UInt8.ofNat x.length]⟩

end Tlsn
