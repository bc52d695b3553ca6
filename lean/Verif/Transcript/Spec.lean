import Verif.Transcript.Model

/-!
# Specification vocabulary for transcripts

Independent of the model's loops: everything is said position by position.
-/

namespace Tlsn

/-- The authenticated positions of a partial transcript lie inside its data. -/
def PartialTranscript.WF (p : PartialTranscript) : Prop :=
  ∀ d i, i ∈ p.authed d → i < (p.data d).length

/-- `p` is the redaction of `t` to the positions `S`: same lengths, exactly `S` authenticated, the
bytes of `t` on `S`, zeros elsewhere. -/
structure Redacts (t : Transcript) (S : Direction → RangeSet) (p : PartialTranscript) : Prop where
  len : ∀ d, (p.data d).length = (t.data d).length
  authed : ∀ d, p.authed d = S d
  shown : ∀ d i, i ∈ S d → (p.data d)[i]? = (t.data d)[i]?
  hidden : ∀ d i, ¬ i ∈ S d → i < (t.data d).length → (p.data d)[i]? = some 0

/-- A pair of sets indexed by direction. -/
def bySide (s r : RangeSet) : Direction → RangeSet
  | .sent => s
  | .received => r

/-- Every authenticated byte of `p` is the byte of `t` at the same position. -/
def Truthful (t : Transcript) (p : PartialTranscript) : Prop :=
  ∀ d i, i ∈ p.authed d → (p.data d)[i]? = (t.data d)[i]?

/-- Operations a holder of the transcript `t` may apply to a partial transcript. -/
inductive PtOp where
  /-- `union_subsequence(d, t.get(d, idx))` -/
  | mergeSub (d : Direction) (idx : RangeSet)
  /-- `union_transcript(t.to_partial(s, r))` -/
  | mergeRedaction (s r : RangeSet)
  | setUnauthed (v : Byte)
  | setUnauthedRange (v : Byte) (d : Direction) (lo hi : Nat)

/-- Positions an operation adds to the authenticated set of direction `d` (nothing when the index set
is out of bounds, because then `get` yields no subsequence). -/
def PtOp.adds (t : Transcript) (d : Direction) : PtOp → Nat → Prop
  | .mergeSub d' idx, i => d' = d ∧ idx.endD ≤ (t.data d').length ∧ i ∈ idx
  | .mergeRedaction s r, i => i ∈ bySide s r d
  | _, _ => False

/-- One operation; `none` is a panic. -/
def PtOp.apply (t : Transcript) (p : PartialTranscript) : PtOp → Option PartialTranscript
  | .mergeSub d idx =>
    match t.get d idx with
    | .ok (some s) => p.unionSubsequence d s
    | .ok none => some p
    | _ => none
  | .mergeRedaction s r => do
    let o ← t.toPartial s r
    p.unionTranscript o
  | .setUnauthed v => p.setUnauthed v
  | .setUnauthedRange v d lo hi => p.setUnauthedRange v d lo hi

/-- A history of operations; `none` is a panic. -/
def runPt (t : Transcript) : List PtOp → PartialTranscript → Option PartialTranscript
  | [], p => some p
  | op :: ops, p => do
    let q ← op.apply t p
    runPt t ops q

end Tlsn
