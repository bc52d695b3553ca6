import Verif.Config.Model

/-!
# Specification vocabulary for the configuration builders
-/

namespace Tlsn

/-- The calls a user can make on a commitment configuration builder. -/
inductive CommitOp where
  | defaultKind (k : HashAlgId)
  | commitWithKind (ranges : List Rng) (d : Direction) (k : HashAlgId)
  | commit (ranges : List Rng) (d : Direction)
  | commitSent (ranges : List Rng)
  | commitRecv (ranges : List Rng)

/-- One call and its result. -/
def CommitOp.call (b : CommitBuilder) : CommitOp → Except IndexError CommitBuilder
  | .defaultKind k => .ok (b.setDefaultKind k)
  | .commitWithKind r d k => b.commitWithKind r d k
  | .commit r d => b.commit r d
  | .commitSent r => b.commitSent r
  | .commitRecv r => b.commitRecv r

/-- The builder after a call: unchanged when the call fails. -/
def keepOnError {ε α : Type} (b : α) : Except ε α → α
  | .ok b' => b'
  | .error _ => b

@[simp] theorem keepOnError_ok {ε α : Type} (b b' : α) :
    keepOnError b (.ok b' : Except ε α) = b' := rfl
@[simp] theorem keepOnError_error {ε α : Type} (b : α) (e : ε) :
    keepOnError b (.error e : Except ε α) = b := rfl

/-- A history of calls: the caller may go on with the same builder after an error. -/
def runCommit (t : Transcript) (ops : List CommitOp) : CommitBuilder :=
  ops.foldl (fun b op => keepOnError b (op.call b)) (CommitBuilder.new t)

/-- What a call asks for: ranges, direction and, if the call names one, the kind. -/
def CommitOp.asks : CommitOp → Option (List Rng × Direction × Option HashAlgId)
  | .defaultKind _ => none
  | .commitWithKind r d k => some (r, d, some k)
  | .commit r d => some (r, d, none)
  | .commitSent r => some (r, .sent, none)
  | .commitRecv r => some (r, .received, none)

/-- The default kind after some calls: the one set last, BLAKE3 before any. -/
def defaultKindAfter (ops : List CommitOp) : HashAlgId :=
  (ops.filterMap fun | .defaultKind k => some k | _ => none).getLast?.getD .blake3

/-- All positions of the ranges lie inside the transcript. -/
def RangesInBounds (t : Transcript) (d : Direction) (ranges : List Rng) : Prop :=
  ∀ i, RangesMem i ranges → i < (t.data d).length

/-- `(d, idx, k)` was asked for by the `n`-th call of the history, and lay in bounds. -/
def AskedAt (t : Transcript) (ops : List CommitOp) (n : Nat) (d : Direction) (idx : RangeSet)
    (k : HashAlgId) : Prop :=
  ∃ op r ko, ops[n]? = some op ∧ op.asks = some (r, d, ko) ∧ RangesInBounds t d r ∧
    (∀ i, i ∈ idx ↔ RangesMem i r) ∧ k = ko.getD (defaultKindAfter (ops.take n))

/-- The calls a user can make on a prove configuration builder. -/
inductive ProveOp where
  | serverIdentity
  | transcriptCommit (c : CommitConfig)
  | reveal (d : Direction) (ranges : List Rng)
  | revealSent (ranges : List Rng)
  | revealRecv (ranges : List Rng)
  | revealSentAll
  | revealRecvAll

/-- One call and its result. -/
def ProveOp.call (b : ProveBuilder) : ProveOp → Except IndexError ProveBuilder
  | .serverIdentity => .ok b.setServerIdentity
  | .transcriptCommit c => .ok (b.setTranscriptCommit c)
  | .reveal d r => b.revealRanges d r
  | .revealSent r => b.revealSent r
  | .revealRecv r => b.revealRecv r
  | .revealSentAll => .ok b.revealSentAll
  | .revealRecvAll => .ok b.revealRecvAll

/-- A history of calls. -/
def runProve (t : Transcript) (ops : List ProveOp) : ProveBuilder :=
  ops.foldl (fun b op => keepOnError b (op.call b)) (ProveBuilder.new t)

/-- The call asks to reveal position `i` of direction `d`. -/
def ProveOp.asksFor (t : Transcript) (d : Direction) (i : Nat) : ProveOp → Prop
  | .reveal d' r => d' = d ∧ RangesInBounds t d r ∧ RangesMem i r
  | .revealSent r => d = .sent ∧ RangesInBounds t d r ∧ RangesMem i r
  | .revealRecv r => d = .received ∧ RangesInBounds t d r ∧ RangesMem i r
  | .revealSentAll => d = .sent ∧ i < (t.data d).length
  | .revealRecvAll => d = .received ∧ i < (t.data d).length
  | _ => False

/-- Positions revealed by an optional pair of sets. -/
def revealedIn (r : Option (RangeSet × RangeSet)) (d : Direction) (i : Nat) : Prop :=
  match r, d with
  | none, _ => False
  | some p, .sent => i ∈ p.1
  | some p, .received => i ∈ p.2

end Tlsn
