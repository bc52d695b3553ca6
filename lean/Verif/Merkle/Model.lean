import Verif.Proof.Model
import Mathlib.Data.Nat.Log

/-!
# Model of crates/core/src/merkle.rs

`MerkleTree` and `MerkleProof` wrap the `rs_merkle` crate (a fork, version 1.4.2, not vendored in
/repo).  `parentLayer`, `treeDepth`, `climb`, `rsRoot` and `helperNodes` model that dependency: a
layer is hashed pairwise, an odd last node is promoted unchanged, a proof carries the missing siblings
layer by layer from left to right.  Whether the crate refuses leaf indices that are not below the leaf
count is not visible in /repo; the flag `checked` covers both possibilities and every theorem says
which one it needs.  A proof with too few hashes is modelled as rejected; extra hashes are ignored.
-/

namespace Tlsn

/-- A hash value as bytes (`Hash::as_bytes`). -/
abbrev Digest := Bytes

/-- One layer up in an honest tree: `concat_and_hash` on pairs, an odd last node is promoted.
`RsMerkleHasher` (crates/core/src/merkle.rs:70-78) hashes the plain concatenation of the two nodes. -/
def parentLayer (H : Bytes → Digest) : List Digest → List Digest
  | a :: b :: t => H (a ++ b) :: parentLayer H t
  | l => l

/-- `rs_merkle` tree depth: 1 for a single leaf, otherwise `ceil(log2 n)`. -/
def treeDepth (n : Nat) : Nat := if n = 1 then 1 else Nat.clog 2 n

/-- Size of the next layer. -/
def halfUp (n : Nat) : Nat := (n + 1) / 2

/-- The layer `k` levels above the leaves. -/
def layerUp (H : Bytes → Digest) : Nat → List Digest → List Digest
  | 0, l => l
  | k + 1, l => layerUp H k (parentLayer H l)

/-- crates/core/src/merkle.rs:102-120 `insert` then `root`; `none` is the panic on an empty tree. -/
def merkleRoot (H : Bytes → Digest) (leaves : List Digest) : Option Digest :=
  (layerUp H (treeDepth leaves.length) leaves).head?

/-- One layer of proof verification: known nodes (sorted by index) in a layer of `n` nodes, and the
remaining proof hashes; result: known nodes of the next layer and the remaining proof hashes. -/
def climb (H : Bytes → Digest) (n : Nat) :
    List (Nat × Digest) → List Digest → Option (List (Nat × Digest) × List Digest)
  | [], ps => some ([], ps)
  | (i, h) :: rest, ps =>
    if i % 2 = 0 then
      match rest with
      | (j, h') :: rest' =>
        if j = i + 1 then
          (climb H n rest' ps).map fun r => ((i / 2, H (h ++ h')) :: r.1, r.2)
        else
          match ps with
          | [] => none
          | p :: ps' => (climb H n ((j, h') :: rest') ps').map
              fun r => ((i / 2, H (h ++ p)) :: r.1, r.2)
      | [] =>
        if i + 1 = n then some ([(i / 2, h)], ps)
        else
          match ps with
          | [] => none
          | p :: ps' => some ([(i / 2, H (h ++ p))], ps')
    else
      match ps with
      | [] => none
      | p :: ps' => (climb H n rest ps').map fun r => ((i / 2, H (p ++ h)) :: r.1, r.2)
  termination_by nodes => nodes.length

/-- All layers of proof verification. -/
def climbAll (H : Bytes → Digest) : Nat → Nat → List (Nat × Digest) → List Digest →
    Option (List (Nat × Digest) × List Digest)
  | 0, _, nodes, ps => some (nodes, ps)
  | k + 1, n, nodes, ps => do
    let r ← climb H n nodes ps
    climbAll H k (halfUp n) r.1 r.2

/-- `rs_merkle::MerkleProof::root`: the first node of the top layer. -/
def rsRoot (checked : Bool) (H : Bytes → Digest) (leafCount : Nat) (leaves : List (Nat × Digest))
    (ps : List Digest) : Option Digest :=
  if checked && leaves.any (fun l => decide (leafCount ≤ l.1)) then none
  else do
    let top ← climbAll H (treeDepth leafCount) leafCount leaves ps
    top.1.head?.map (·.2)

/-- crates/core/src/merkle.rs:22-26 `MerkleProof`. -/
structure MerkleProof where
  alg : HashAlgId
  leafCount : Nat
  hashes : List Digest
  deriving DecidableEq

/-- The errors of crates/core/src/merkle.rs:52, 62. -/
inductive MerkleError where
  | duplicate
  | invalid
  deriving DecidableEq, Repr

/-- Insertion of one leaf in a list sorted by index (after equal indices: the sort is stable). -/
def insertLeaf (x : Nat × Digest) : List (Nat × Digest) → List (Nat × Digest)
  | [] => [x]
  | y :: t => if x.1 < y.1 then x :: y :: t else y :: insertLeaf x t

/-- `leaves.sort_by_key(|(idx, _)| *idx)`: stable sort by index (crates/core/src/merkle.rs:47, attestation
crates/attestation/src/lib.rs:411). -/
def sortLeaves (l : List (Nat × Digest)) : List (Nat × Digest) := l.foldl (fun acc x => insertLeaf x acc) []

/-- crates/core/src/merkle.rs:38-66 `MerkleProof::verify`.  Neither the proof's `alg` nor the root's
`alg` is looked at. -/
def MerkleProof.verify (checked : Bool) (p : MerkleProof) (hasher : HashAlg) (root : TypedHash)
    (leaves : List (Nat × Digest)) : Except MerkleError Unit :=
  let sorted := sortLeaves leaves
  if ¬ (sorted.map (·.1)).Nodup then .error .duplicate
  else if rsRoot checked hasher.hash p.leafCount sorted p.hashes = some root.value then .ok ()
  else .error .invalid

/-- The proof hashes of one layer for the nodes `idxs` of the honest layer `full`
(`rs_merkle` `helper_nodes`): the siblings of the given nodes that are not given themselves. -/
def helperLayer (full : List Digest) : List Nat → List Digest
  | [] => []
  | i :: rest =>
    if i % 2 = 0 then
      match rest with
      | j :: rest' =>
        if j = i + 1 then helperLayer full rest'
        else full[i + 1]?.toList ++ helperLayer full (j :: rest')
      | [] => if i + 1 = full.length then [] else full[i + 1]?.toList
    else full[i - 1]?.toList ++ helperLayer full rest
  termination_by idxs => idxs.length

/-- Indices of the parents, without repetition. -/
def parentIdxs : List Nat → List Nat
  | [] => []
  | i :: rest =>
    match rest with
    | j :: rest' =>
      if i % 2 = 0 ∧ j = i + 1 then i / 2 :: parentIdxs rest' else i / 2 :: parentIdxs (j :: rest')
    | [] => [i / 2]
  termination_by idxs => idxs.length

/-- All proof hashes for the given leaves. -/
def helperNodes (H : Bytes → Digest) : Nat → List Digest → List Nat → List Digest
  | 0, _, _ => []
  | k + 1, full, idxs => helperLayer full idxs ++ helperNodes H k (parentLayer H full) (parentIdxs idxs)

/-- crates/core/src/merkle.rs:81-85 `MerkleTree`, after `insert` of the leaves (crates/core/src/merkle.rs:115-120). -/
structure MerkleTree where
  alg : HashAlgId
  leaves : List Digest

/-- crates/core/src/merkle.rs:102-107 `root`; `none` is the panic. -/
def MerkleTree.root (t : MerkleTree) (hasher : HashAlg) : Option TypedHash :=
  (merkleRoot hasher.hash t.leaves).map fun v => ⟨t.alg, v⟩

/-- crates/core/src/merkle.rs:128-144 `proof`; `none` is a failed assertion (not strictly increasing,
empty, or out of bounds). -/
def MerkleTree.proof (t : MerkleTree) (hasher : HashAlg) (indices : List Nat) : Option MerkleProof :=
  if ¬ indices.Pairwise (· < ·) then none
  else match indices.getLast? with
  | none => none
  | some last =>
    if last < t.leaves.length then
      some ⟨t.alg, t.leaves.length,
        helperNodes hasher.hash (treeDepth t.leaves.length) t.leaves indices⟩
    else none

end Tlsn
