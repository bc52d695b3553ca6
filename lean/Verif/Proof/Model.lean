import Verif.Transcript.Model

/-!
# Model of crates/core/src/hash.rs, transcript/hash.rs and transcript/proof.rs
-/

namespace Tlsn

/-- crates/core/src/hash.rs:60 `HashAlgId(u8)`. -/
abbrev HashAlgId := Byte

/-- crates/core/src/hash.rs:64-68. -/
def HashAlgId.sha256 : HashAlgId := 1
/-- crates/core/src/hash.rs:66. -/
def HashAlgId.blake3 : HashAlgId := 2
/-- crates/core/src/hash.rs:68. -/
def HashAlgId.keccak256 : HashAlgId := 3

/-- crates/core/src/hash.rs:230-239 `HashAlgorithm`.  The hash function is a parameter of the model.
`hash_prefixed(p, d)` is modelled as `hash (p ++ d)`, as all three implementations
(crates/core/src/hash.rs:302-307, 328-333, 359-366) do by updating the hasher twice. -/
structure HashAlg where
  id : HashAlgId
  hash : Bytes → Bytes

/-- crates/core/src/hash.rs:17-56 `HashProvider` (a map from identifiers to implementations). -/
abbrev HashProvider := HashAlgId → Option HashAlg

/-- crates/core/src/hash.rs:98-104 `TypedHash`.  The value is the `as_bytes` content of `Hash`, see
`Verif.Hash` for the fixed-size representation. -/
structure TypedHash where
  alg : HashAlgId
  value : Bytes
  deriving DecidableEq, Repr

/-- crates/core/src/hash.rs:243 `Blinder([u8; 16])`. -/
abbrev Blinder := Vector Byte 16

/-- crates/core/src/transcript/hash.rs:13-18 `hash_plaintext`. -/
def hashPlaintext (h : HashAlg) (msg : Bytes) (blinder : Blinder) : TypedHash :=
  { alg := h.id, value := h.hash (msg ++ blinder.toList) }

/-- crates/core/src/transcript/hash.rs:22-29 `PlaintextHash`; also the only variant of
`TranscriptCommitment` (crates/core/src/transcript/commit.rs:38-41). -/
structure PlaintextHash where
  direction : Direction
  idx : RangeSet
  hash : TypedHash
  deriving DecidableEq

/-- crates/core/src/transcript/hash.rs:33-42 `PlaintextHashSecret`; also the only variant of
`TranscriptSecret` (crates/core/src/transcript/commit.rs:46-49). -/
structure PlaintextHashSecret where
  direction : Direction
  idx : RangeSet
  alg : HashAlgId
  blinder : Blinder
  deriving DecidableEq

/-- crates/core/src/transcript/proof.rs:37-40 `TranscriptProof`. -/
structure TranscriptProof where
  transcript : PartialTranscript
  hashSecrets : List PlaintextHashSecret
  deriving DecidableEq

/-- The error sites of `verify_with_provider` (crates/core/src/transcript/proof.rs:73, 91, 103, 121, 134). -/
inductive ProofError where
  | length
  | unknownAlg
  | outOfBounds
  | noCommitment
  | unauthenticated
  deriving DecidableEq, Repr

/-- `auth.union_mut(&idx)` on the running set of the secret's direction
(crates/core/src/transcript/proof.rs:97-100, 127 and 249-252). -/
def addIdx (acc : RangeSet × RangeSet) (s : PlaintextHashSecret) : RangeSet × RangeSet :=
  match s.direction with
  | .sent => (acc.1.union s.idx, acc.2)
  | .received => (acc.1, acc.2.union s.idx)

/-- The loop body of crates/core/src/transcript/proof.rs:83-128 for one secret: the running authenticated sets are
`(sent, recv)`. -/
def verifySecret (provider : HashProvider) (commitments : List PlaintextHash)
    (t : PartialTranscript) (acc : RangeSet × RangeSet) (s : PlaintextHashSecret) :
    Outcome ProofError (RangeSet × RangeSet) :=
  match provider s.alg with
  | none => .err .unknownAlg
  | some hasher =>
    let plaintext := t.data s.direction
    if s.idx.endD > plaintext.length then .err .outOfBounds
    else match gather plaintext s.idx.ranges with
      | none => .panic
      | some buffer =>
        let expected : PlaintextHash :=
          { direction := s.direction, idx := s.idx, hash := hashPlaintext hasher buffer s.blinder }
        if expected ∈ commitments then .ok (addIdx acc s) else .err .noCommitment

/-- The loop of crates/core/src/transcript/proof.rs:83-128. -/
def verifySecrets (provider : HashProvider) (commitments : List PlaintextHash)
    (t : PartialTranscript) :
    RangeSet × RangeSet → List PlaintextHashSecret → Outcome ProofError (RangeSet × RangeSet)
  | acc, [] => .ok acc
  | acc, s :: ss => do
    let acc ← verifySecret provider commitments t acc s
    verifySecrets provider commitments t acc ss

/-- crates/core/src/transcript/proof.rs:54-141 `verify_with_provider`.  The `HashSet` of commitments
is modelled by list membership. -/
def TranscriptProof.verify (p : TranscriptProof) (provider : HashProvider)
    (length : TranscriptLength) (commitments : List PlaintextHash) :
    Outcome ProofError PartialTranscript :=
  if p.transcript.sent.length ≠ length.sent ∨ p.transcript.received.length ≠ length.received then
    .err .length
  else do
    let auth ← verifySecrets provider commitments p.transcript (∅, ∅) p.hashSecrets
    if auth.1 ≠ p.transcript.sentAuthed ∨ auth.2 ≠ p.transcript.receivedAuthed then
      .err .unauthenticated
    else .ok p.transcript

/-! ## Builder -/

/-- crates/core/src/transcript/proof.rs:226-234 `TranscriptProofBuilder` (with `QueryIdx`, 188-211,
inlined).  A commitment kind is its hash algorithm (crates/core/src/transcript/commit.rs:19-25 has a single variant). -/
structure ProofBuilder where
  kinds : List HashAlgId
  transcript : Transcript
  hashSecrets : List PlaintextHashSecret
  committedSent : RangeSet
  committedRecv : RangeSet
  querySent : RangeSet
  queryRecv : RangeSet

/-- crates/core/src/transcript/proof.rs:23-33 `DEFAULT_COMMITMENT_KINDS`. -/
def defaultKinds : List HashAlgId := [.sha256, .blake3, .keccak256]

/-- The fold of crates/core/src/transcript/proof.rs:246-256 computing the committed sets. -/
def committedIdx : List PlaintextHashSecret → RangeSet × RangeSet → RangeSet × RangeSet
  | [], acc => acc
  | s :: ss, acc =>
    committedIdx ss (addIdx acc s)

/-- crates/core/src/transcript/proof.rs:238-266 `TranscriptProofBuilder::new`. -/
def ProofBuilder.new (t : Transcript) (secrets : List PlaintextHashSecret) : ProofBuilder :=
  let c := committedIdx secrets (∅, ∅)
  { kinds := defaultKinds, transcript := t, hashSecrets := secrets
    committedSent := c.1, committedRecv := c.2, querySent := ∅, queryRecv := ∅ }

/-- Removes duplicates keeping the first occurrence, as `filter(|k| seen.insert(k))` does
(crates/core/src/transcript/proof.rs:273-278). -/
def dedupKinds : List HashAlgId → List HashAlgId → List HashAlgId
  | _, [] => []
  | seen, k :: ks => if k ∈ seen then dedupKinds seen ks else k :: dedupKinds (k :: seen) ks

/-- crates/core/src/transcript/proof.rs:270-281 `commitment_kinds`. -/
def ProofBuilder.commitmentKinds (b : ProofBuilder) (kinds : List HashAlgId) : ProofBuilder :=
  if kinds.isEmpty then b else { b with kinds := dedupKinds [] kinds }

/-- crates/core/src/transcript/proof.rs:461-470 `BuilderErrorKind` (payloads dropped). -/
inductive BuilderError where
  | index
  | missingCommitment
  | cover
  deriving DecidableEq, Repr

/-- crates/core/src/transcript/proof.rs:297-332 `reveal_inner`.  On error the builder (behind
`&mut self`) is returned unchanged. -/
def ProofBuilder.reveal (b : ProofBuilder) (idx : RangeSet) (d : Direction) :
    ProofBuilder × Except BuilderError Unit :=
  if idx.endD > b.transcript.lenOfDirection d then (b, .error .index)
  else
    let committed := match d with
      | .sent => b.committedSent
      | .received => b.committedRecv
    if idx.isSubset committed then
      match d with
      | .sent => ({ b with querySent := b.querySent.union idx }, .ok ())
      | .received => ({ b with queryRecv := b.queryRecv.union idx }, .ok ())
    else (b, .error .missingCommitment)

/-- Result of `rangeset`'s `cover_by`: the chosen candidates and the part left uncovered. -/
abbrev CoverFn := RangeSet → List PlaintextHashSecret → List PlaintextHashSecret × RangeSet

/-- What is assumed of `rangeset::ops::Cover::cover_by` (a dependency): it only picks candidates that
lie inside the target, reports exactly the uncovered rest, and leaves nothing uncovered that some
candidate inside the target contains. -/
structure CoverContract (cover : CoverFn) : Prop where
  mem : ∀ u cs s, s ∈ (cover u cs).1 → s ∈ cs ∧ s.idx ⊆ u
  rest : ∀ u cs i, i ∈ (cover u cs).2 ↔ i ∈ u ∧ ∀ s ∈ (cover u cs).1, ¬ i ∈ s.idx
  maximal : ∀ u cs i, i ∈ (cover u cs).2 → ∀ s ∈ cs, s.idx ⊆ u → ¬ i ∈ s.idx

/-- The loop of crates/core/src/transcript/proof.rs:370-417. State: uncovered sent, uncovered recv, chosen secrets. -/
def coverLoop (cover : CoverFn) (secrets : List PlaintextHashSecret) :
    List HashAlgId → RangeSet → RangeSet → List PlaintextHashSecret →
      RangeSet × RangeSet × List PlaintextHashSecret
  | [], us, ur, acc => (us, ur, acc)
  | k :: ks, us, ur, acc =>
    if us.isEmpty && ur.isEmpty then (us, ur, acc)
    else
      let s := cover us (secrets.filter fun h => h.direction = .sent ∧ h.alg = k)
      let r := cover ur (secrets.filter fun h => h.direction = .received ∧ h.alg = k)
      coverLoop cover secrets ks s.2 r.2 (acc ++ s.1 ++ r.1)

/-- crates/core/src/transcript/proof.rs:359-429 `build`. -/
def ProofBuilder.build (cover : CoverFn) (b : ProofBuilder) :
    Outcome BuilderError TranscriptProof :=
  match b.transcript.toPartial b.querySent b.queryRecv with
  | none => .panic
  | some t =>
    let res := coverLoop cover b.hashSecrets b.kinds b.querySent b.queryRecv []
    if res.1.isEmpty && res.2.1.isEmpty then
      .ok { transcript := t, hashSecrets := res.2.2 }
    else .err .cover

/-- Greedy set cover, the algorithm of `cover_by`: repeatedly pick the candidate that covers most of
what is uncovered.  `n` bounds the number of rounds. -/
def greedyRounds (cs : List PlaintextHashSecret) :
    Nat → RangeSet → List PlaintextHashSecret × RangeSet
  | 0, u => ([], u)
  | n + 1, u =>
    match cs.foldl (fun best s =>
        let g := (s.idx.inter u).len
        match best with
        | none => if g > 0 then some (s, g) else none
        | some (b, k) => if g ≥ k then some (s, g) else some (b, k)) none with
    | none => ([], u)
    | some (s, _) =>
      let r := greedyRounds cs n (u.diff s.idx)
      (s :: r.1, r.2)

/-- Model of `rangeset`'s `cover_by`: candidates are the sets inside the target. -/
def greedyCover : CoverFn := fun u cs =>
  let cands := cs.filter fun s => s.idx.isSubset u
  greedyRounds cands cands.length u

end Tlsn
