import Verif.Proof.Lemmas
import Verif.Proof.Spec

/-! # Properties C09-C14 of transcript proofs -/

namespace Tlsn

theorem gather_bytesAt {data : Bytes} {idx : RangeSet} {msg : Bytes} :
    gather data idx.ranges = some msg ↔ BytesAt data idx msg := by
  constructor
  · intro h; exact (gather_rangeSet h).1
  · intro h
    have hb : idx.endD ≤ data.length := by
      rw [RangeSet.endD_le_iff]
      intro i hi
      obtain ⟨k, hk⟩ := List.getElem?_of_mem (RangeSet.mem_values.2 hi)
      have := congrArg (fun l => l[k]?) h
      simp only [List.getElem?_map, hk, Option.map_some] at this
      cases hx : msg[k]? with
      | none => simp [hx] at this
      | some x =>
        simp only [hx, Option.map_some, Option.some.injEq] at this
        exact (List.getElem?_eq_some_iff.1 this.symm).1
    obtain ⟨b, hb⟩ := gather_isSome (RangeSet.inBounds hb)
    have h2 := (gather_rangeSet hb).1
    have h4 : b.map some = msg.map some := by rw [h2]; exact h.symm
    have : b = msg := by
      have := congrArg (List.map (fun o : Option Byte => o.getD 0)) h4
      simpa [List.map_map, Function.comp_def] using this
    rw [hb, this]

/-! ## C09 -/

/-- C09: exact acceptance condition of a transcript proof.  Acceptance returns the presented
transcript, has the declared length, every secret opens one of the commitments for the bytes shown,
and the authenticated positions are exactly those covered by the secrets. -/
theorem C09_verify_iff (p : TranscriptProof) (provider : HashProvider) (length : TranscriptLength)
    (cs : List PlaintextHash) (t : PartialTranscript) :
    p.verify provider length cs = .ok t ↔
      t = p.transcript ∧ t.sent.length = length.sent ∧ t.received.length = length.received ∧
      (∀ s ∈ p.hashSecrets, ∃ h msg, provider s.alg = some h ∧
        BytesAt (t.data s.direction) s.idx msg ∧
        (⟨s.direction, s.idx, ⟨h.id, h.hash (msg ++ s.blinder.toList)⟩⟩ : PlaintextHash) ∈ cs) ∧
      ∀ d i, i ∈ t.authed d ↔ ∃ s ∈ p.hashSecrets, s.direction = d ∧ i ∈ s.idx := by
  rw [verify_ok]
  simp only [Opens, gather_bytesAt, hashPlaintext]

/-- C09: verification never panics, whatever the proof contains. -/
theorem C09_verify_no_panic (p : TranscriptProof) (provider : HashProvider)
    (length : TranscriptLength) (cs : List PlaintextHash) :
    p.verify provider length cs ≠ .panic := by
  unfold TranscriptProof.verify
  split
  · simp
  · cases h : verifySecrets provider cs p.transcript (∅, ∅) p.hashSecrets with
    | ok a => simp only [Outcome.bind_ok]; split <;> simp
    | err e => simp
    | panic => exact absurd h (verifySecrets_no_panic _ _ _ _ _)

/-- C09: no authenticated byte without an attested commitment that contains its position. -/
theorem C09_authed_committed (p : TranscriptProof) (provider : HashProvider)
    (length : TranscriptLength) (cs : List PlaintextHash) (t : PartialTranscript)
    (h : p.verify provider length cs = .ok t) (d : Direction) (i : Nat) (hi : i ∈ t.authed d) :
    ∃ c ∈ cs, c.direction = d ∧ i ∈ c.idx := by
  obtain ⟨_, _, _, h4, h5⟩ := (C09_verify_iff p provider length cs t).1 h
  obtain ⟨s, hs, hd, hm⟩ := (h5 d i).1 hi
  obtain ⟨_, _, _, _, hc⟩ := h4 s hs
  exact ⟨_, hc, hd, hm⟩

/-! ## C10 -/

/-- C10: if every attested commitment was honestly computed from the transcript `t`, an accepted
proof shows `t`'s bytes at every authenticated position, or a collision of one of the provider's
hash functions exists. -/
theorem C10_binding (p : TranscriptProof) (provider : HashProvider) (length : TranscriptLength)
    (cs : List PlaintextHash) (t : Transcript) (v : PartialTranscript) (hp : ProviderOk provider)
    (hon : ∀ c ∈ cs, ∃ s, HonestCommitment provider t s c)
    (h : p.verify provider length cs = .ok v) :
    Truthful t v ∨ ∃ a h, provider a = some h ∧ Collision h := by
  obtain ⟨_, _, _, h4, h5⟩ := (C09_verify_iff p provider length cs v).1 h
  by_cases hcol : ∃ a h, provider a = some h ∧ Collision h
  · exact .inr hcol
  left
  intro d i hi
  obtain ⟨s, hs, hd, hm⟩ := (h5 d i).1 hi
  obtain ⟨ha, msg, hpa, hmsg, hc⟩ := h4 s hs
  obtain ⟨s', hb, msg', hpb, hmsg', he⟩ := hon _ hc
  simp only [PlaintextHash.mk.injEq, TypedHash.mk.injEq] at he
  obtain ⟨e1, e2, e3, e4⟩ := he
  have hida := hp _ _ hpa
  have hidb := hp _ _ hpb
  have halg : s.alg = s'.alg := by rw [← hida, ← hidb, e3]
  rw [halg] at hpa
  rw [hpa] at hpb
  cases hpb
  have heq : msg ++ s.blinder.toList = msg' ++ s'.blinder.toList := by
    refine Classical.byContradiction fun hne => hcol ⟨_, ha, hpa, _, _, hne, e4⟩
  rw [e1, e2] at hmsg
  have hlen : msg.length = msg'.length := by
    have h1 := congrArg List.length hmsg
    have h2 := congrArg List.length hmsg'
    simp only [List.length_map] at h1 h2
    omega
  have hmm := (List.append_inj heq hlen).1
  subst hmm
  rw [e2] at hm
  rw [← hd, e1]
  exact gather_inj (gather_bytesAt.2 hmsg) (gather_bytesAt.2 hmsg') i hm

/-- A toy provider for the examples: algorithm 1 is the identity "hash". -/
def toyProvider : HashProvider := fun a => if a = 1 then some ⟨1, id⟩ else none

/-- Non-vacuity of C09/C10: an honest commitment, a proof that opens it, and a proof showing another
byte, which is rejected. -/
example :
    let t := Transcript.mk [7, 8, 9] []
    let s : PlaintextHashSecret := ⟨.sent, RangeSet.ofRange 1 3, 1, Vector.replicate 16 5⟩
    let c : PlaintextHash := ⟨.sent, RangeSet.ofRange 1 3, ⟨1, [8, 9] ++ List.replicate 16 5⟩⟩
    HonestCommitment toyProvider t s c ∧
    (TranscriptProof.mk ⟨[0, 8, 9], [], RangeSet.ofRange 1 3, ∅⟩ [s]).verify toyProvider ⟨3, 0⟩ [c]
      = .ok ⟨[0, 8, 9], [], RangeSet.ofRange 1 3, ∅⟩ ∧
    (TranscriptProof.mk ⟨[0, 8, 1], [], RangeSet.ofRange 1 3, ∅⟩ [s]).verify toyProvider ⟨3, 0⟩ [c]
      = .err .noCommitment := by
  refine ⟨⟨⟨1, id⟩, [8, 9], rfl, by unfold BytesAt; decide, by decide⟩, by decide, by decide⟩

/-! ## Builder histories -/

theorem runBuilder_const (t : Transcript) (secrets : List PlaintextHashSecret)
    (ops : List BuilderOp) :
    (runBuilder t secrets ops).transcript = t ∧
    (runBuilder t secrets ops).hashSecrets = secrets ∧
    (∀ i, i ∈ (runBuilder t secrets ops).committedSent ↔
      ∃ s ∈ secrets, s.direction = .sent ∧ i ∈ s.idx) ∧
    (∀ i, i ∈ (runBuilder t secrets ops).committedRecv ↔
      ∃ s ∈ secrets, s.direction = .received ∧ i ∈ s.idx) := by
  unfold runBuilder
  have gen : ∀ (ops : List BuilderOp) (b : ProofBuilder),
      let b' := ops.foldl BuilderOp.apply b
      b'.transcript = b.transcript ∧ b'.hashSecrets = b.hashSecrets ∧
      b'.committedSent = b.committedSent ∧ b'.committedRecv = b.committedRecv := by
    intro ops
    induction ops with
    | nil => intro b; exact ⟨rfl, rfl, rfl, rfl⟩
    | cons op ops ih =>
      intro b
      have hstep : (op.apply b).transcript = b.transcript ∧
          (op.apply b).hashSecrets = b.hashSecrets ∧
          (op.apply b).committedSent = b.committedSent ∧
          (op.apply b).committedRecv = b.committedRecv := by
        cases op with
        | reveal idx d =>
          simp only [BuilderOp.apply, ProofBuilder.reveal]
          split
          · exact ⟨rfl, rfl, rfl, rfl⟩
          · cases d <;> simp only <;> split <;> exact ⟨rfl, rfl, rfl, rfl⟩
        | kinds ks =>
          simp only [BuilderOp.apply, ProofBuilder.commitmentKinds]
          split <;> exact ⟨rfl, rfl, rfl, rfl⟩
      have := ih (op.apply b)
      simp only [List.foldl_cons]
      refine ⟨this.1.trans hstep.1, this.2.1.trans hstep.2.1, this.2.2.1.trans hstep.2.2.1,
        this.2.2.2.trans hstep.2.2.2⟩
  obtain ⟨h1, h2, h3, h4⟩ := gen ops (ProofBuilder.new t secrets)
  refine ⟨h1, h2, ?_, ?_⟩
  · intro i; rw [h3]; simpa [ProofBuilder.new] using (committedIdx_mem secrets (∅, ∅)).1 i
  · intro i; rw [h4]; simpa [ProofBuilder.new] using (committedIdx_mem secrets (∅, ∅)).2 i

/-! ## C13 -/

/-- C13: in every reachable builder, a reveal succeeds exactly when all positions are in bounds and
committed; failure changes nothing (with the error telling which condition failed) and success adds
exactly the positions in the given direction. -/
theorem C13_reveal (t : Transcript) (secrets : List PlaintextHashSecret) (ops : List BuilderOp)
    (idx : RangeSet) (d : Direction) :
    let b := runBuilder t secrets ops
    (Revealable t secrets d idx → (b.reveal idx d).2 = .ok () ∧
      (b.reveal idx d).1.kinds = b.kinds ∧
      ∀ d' i, i ∈ (b.reveal idx d).1.query d' ↔ i ∈ b.query d' ∨ (d' = d ∧ i ∈ idx)) ∧
    ((∃ i ∈ idx, (t.data d).length ≤ i) → b.reveal idx d = (b, .error .index)) ∧
    ((∀ i ∈ idx, i < (t.data d).length) → ¬ Revealable t secrets d idx →
      b.reveal idx d = (b, .error .missingCommitment)) := by
  intro b
  obtain ⟨h1, h2, h3, h4⟩ := runBuilder_const t secrets ops
  have hlen : b.transcript.lenOfDirection d = (t.data d).length := by
    rw [show b.transcript = t from h1]; cases d <;> rfl
  have hcom : (idx.isSubset (match d with
      | .sent => b.committedSent
      | .received => b.committedRecv) = true) ↔
      ∀ i ∈ idx, ∃ s ∈ secrets, s.direction = d ∧ i ∈ s.idx := by
    rw [RangeSet.isSubset_iff, RangeSet.subset_def]
    cases d
    · exact forall_congr' fun i => imp_congr_right fun _ => h3 i
    · exact forall_congr' fun i => imp_congr_right fun _ => h4 i
  refine ⟨?_, ?_, ?_⟩
  · rintro ⟨hb, hc⟩
    have hnb : ¬ idx.endD > b.transcript.lenOfDirection d := by
      rw [hlen]; have := RangeSet.endD_le_iff.2 hb; omega
    have hs := hcom.2 hc
    simp only [ProofBuilder.reveal]
    rw [if_neg hnb]
    cases d
    · simp only at hs
      simp only [hs, if_true]
      refine ⟨trivial, trivial, ?_⟩
      rintro (_ | _) i <;> simp [ProofBuilder.query, bySide]
    · simp only at hs
      simp only [hs, if_true]
      refine ⟨trivial, trivial, ?_⟩
      rintro (_ | _) i <;> simp [ProofBuilder.query, bySide]
  · rintro ⟨i, hi, hl⟩
    have hb : idx.endD > b.transcript.lenOfDirection d := by
      rw [hlen]; have := RangeSet.mem_lt_endD hi; omega
    simp only [ProofBuilder.reveal]
    rw [if_pos hb]
  · intro hb hn
    have hnb : ¬ idx.endD > b.transcript.lenOfDirection d := by
      rw [hlen]; have := RangeSet.endD_le_iff.2 hb; omega
    have hs : ¬ _ := fun h => hn ⟨hb, hcom.1 h⟩
    simp only [ProofBuilder.reveal]
    rw [if_neg hnb]
    cases d
    · simp only at hs; simp only [hs]; rfl
    · simp only at hs; simp only [hs]; rfl

/-- C13: after any history, the positions to be revealed are exactly those of the successful calls. -/
theorem C13_query_history (t : Transcript) (secrets : List PlaintextHashSecret)
    (ops : List BuilderOp) (d : Direction) (i : Nat) :
    i ∈ (runBuilder t secrets ops).query d ↔
      ∃ idx, BuilderOp.reveal idx d ∈ ops ∧ Revealable t secrets d idx ∧ i ∈ idx := by
  have hrev : ∀ ops : List BuilderOp, ∀ i, i ∈ (runBuilder t secrets ops.reverse).query d ↔
      ∃ idx, BuilderOp.reveal idx d ∈ ops ∧ Revealable t secrets d idx ∧ i ∈ idx := by
    intro ops
    induction ops with
    | nil =>
      intro i
      simp only [List.reverse_nil, runBuilder, List.foldl_nil, List.not_mem_nil, false_and,
        exists_false, iff_false]
      cases d <;> simp [ProofBuilder.query, ProofBuilder.new, bySide]
    | cons op ops ih =>
      intro i
      have e : runBuilder t secrets (op :: ops).reverse =
          op.apply (runBuilder t secrets ops.reverse) := by
        simp [runBuilder, List.foldl_append]
      rw [e]
      cases op with
      | kinds ks =>
        have hq : (BuilderOp.apply (runBuilder t secrets ops.reverse) (.kinds ks)).query d =
            (runBuilder t secrets ops.reverse).query d := by
          simp only [BuilderOp.apply, ProofBuilder.commitmentKinds]; split <;> rfl
        rw [hq, ih i]; simp
      | reveal idx d' =>
        obtain ⟨c1, c2, c3⟩ := C13_reveal t secrets ops.reverse idx d'
        by_cases hR : Revealable t secrets d' idx
        · have := (c1 hR).2.2 d i
          simp only [BuilderOp.apply]
          rw [this, ih i]
          constructor
          · rintro (⟨x, hx, h⟩ | ⟨rfl, h⟩)
            · exact ⟨x, by simp [hx], h⟩
            · exact ⟨idx, by simp, hR, h⟩
          · rintro ⟨x, hx, h⟩
            rcases List.mem_cons.1 hx with hx | hx
            · cases hx; exact .inr ⟨rfl, h.2⟩
            · exact .inl ⟨x, hx, h⟩
        · have hun : (runBuilder t secrets ops.reverse).reveal idx d' =
              (runBuilder t secrets ops.reverse, .error .index) ∨
              (runBuilder t secrets ops.reverse).reveal idx d' =
              (runBuilder t secrets ops.reverse, .error .missingCommitment) := by
            by_cases hb : ∀ i ∈ idx, i < (t.data d').length
            · exact .inr (c3 hb hR)
            · refine .inl (c2 ?_)
              exact Classical.byContradiction fun hn => hb fun i hi =>
                Nat.lt_of_not_le fun hle => hn ⟨i, hi, hle⟩
          have hq : (BuilderOp.apply (runBuilder t secrets ops.reverse) (.reveal idx d')) =
              runBuilder t secrets ops.reverse := by
            simp only [BuilderOp.apply]; rcases hun with h | h <;> rw [h]
          rw [hq, ih i]
          constructor
          · rintro ⟨x, hx, h⟩; exact ⟨x, by simp [hx], h⟩
          · rintro ⟨x, hx, h⟩
            rcases List.mem_cons.1 hx with hx | hx
            · cases hx; exact absurd h.1 hR
            · exact ⟨x, hx, h⟩
  have := hrev ops.reverse i
  simpa using this

/-- Non-vacuity of C13: a successful, an out-of-bounds and an uncommitted reveal. -/
example :
    let t := Transcript.mk [1, 2, 3, 4] []
    let b := runBuilder t [⟨.sent, RangeSet.ofRange 0 2, 1, Vector.replicate 16 0⟩] []
    (b.reveal (RangeSet.ofRange 0 2) .sent).2 = .ok () ∧
    (b.reveal (RangeSet.ofRange 0 3) .sent).2 = .error .missingCommitment ∧
    (b.reveal (RangeSet.ofRange 0 5) .sent).2 = .error .index := by
  refine ⟨?_, ?_, ?_⟩ <;> rfl

/-! ## C12 -/

theorem query_inBounds (t : Transcript) (secrets : List PlaintextHashSecret)
    (ops : List BuilderOp) (d : Direction) :
    ∀ i ∈ (runBuilder t secrets ops).query d, i < (t.data d).length := by
  intro i hi
  obtain ⟨idx, _, hR, hm⟩ := (C13_query_history t secrets ops d i).1 hi
  exact hR.1 i hm

theorem build_ok_spec {cover : CoverFn} (hc : CoverContract cover) (t : Transcript)
    (secrets : List PlaintextHashSecret) (ops : List BuilderOp) (p : TranscriptProof)
    (h : (runBuilder t secrets ops).build cover = .ok p) :
    Redacts t (runBuilder t secrets ops).query p.transcript ∧
    (∀ s ∈ p.hashSecrets, s ∈ secrets ∧ s.alg ∈ (runBuilder t secrets ops).kinds ∧
      s.idx ⊆ (runBuilder t secrets ops).query s.direction) ∧
    (∀ d i, i ∈ (runBuilder t secrets ops).query d →
      ∃ s ∈ p.hashSecrets, s.direction = d ∧ i ∈ s.idx) := by
  obtain ⟨h1, h2, _, _⟩ := runBuilder_const t secrets ops
  have hq := query_inBounds t secrets ops
  generalize runBuilder t secrets ops = b at *
  subst h1 h2
  unfold ProofBuilder.build at h
  obtain ⟨pt, hpt, hr⟩ := C01_to_partial_redacts b.transcript b.querySent b.queryRecv
    (hq .sent) (hq .received)
  rw [hpt] at h
  simp only at h
  split at h
  · rename_i he
    simp only [Outcome.ok.injEq] at h; subst h
    obtain ⟨i1, _, i3, _⟩ := coverLoop_inv hc b.hashSecrets b.kinds b.querySent b.queryRecv []
    refine ⟨hr, ?_, ?_⟩
    · intro s hs
      rcases i1 s hs with hh | hh
      · cases hh
      · exact hh
    · intro d i hi
      rcases i3 d i hi with hh | hh
      · exfalso
        rw [Bool.and_eq_true, RangeSet.isEmpty_iff, RangeSet.isEmpty_iff] at he
        cases d
        · exact he.1 i hh
        · exact he.2 i hh
      · exact hh
  · simp at h

/-- C12: a built proof contains the redaction of the transcript to the revealed positions and only
secrets (blinders) of commitments lying entirely inside the revealed positions. -/
theorem C12_no_extra_disclosure (t : Transcript) (secrets : List PlaintextHashSecret)
    (ops : List BuilderOp) (cover : CoverFn) (hc : CoverContract cover) (p : TranscriptProof)
    (h : (runBuilder t secrets ops).build cover = .ok p) :
    Redacts t (runBuilder t secrets ops).query p.transcript ∧
    ∀ s ∈ p.hashSecrets, s ∈ secrets ∧
      ∀ i ∈ s.idx, i ∈ (runBuilder t secrets ops).query s.direction := by
  obtain ⟨h1, h2, _⟩ := build_ok_spec hc t secrets ops p h
  exact ⟨h1, fun s hs => ⟨(h2 s hs).1, (h2 s hs).2.2⟩⟩

/-- C12: two transcripts that agree on the revealed positions give the same proof: nothing about the
unrevealed bytes can be learnt from it. -/
theorem C12_noninterference (t t' : Transcript) (secrets : List PlaintextHashSecret)
    (ops : List BuilderOp) (cover : CoverFn)
    (hl : ∀ d, (t.data d).length = (t'.data d).length)
    (he : ∀ d i, i ∈ (runBuilder t secrets ops).query d → (t.data d)[i]? = (t'.data d)[i]?) :
    (runBuilder t secrets ops).build cover = (runBuilder t' secrets ops).build cover := by
  have hsame : ∀ ops : List BuilderOp, ∀ b b' : ProofBuilder,
      (∀ d, b.transcript.lenOfDirection d = b'.transcript.lenOfDirection d) →
      b' = { b with transcript := b'.transcript } →
      ops.foldl BuilderOp.apply b' =
        { ops.foldl BuilderOp.apply b with transcript := b'.transcript } := by
    intro ops
    induction ops with
    | nil => intro b b' _ hb; exact hb
    | cons op ops ih =>
      intro b b' hlen hb
      simp only [List.foldl_cons]
      have hstep : op.apply b' = { op.apply b with transcript := b'.transcript } := by
        rw [hb]
        cases op with
        | kinds ks =>
          simp only [BuilderOp.apply, ProofBuilder.commitmentKinds]; split <;> rfl
        | reveal idx d =>
          simp only [BuilderOp.apply, ProofBuilder.reveal, ← hlen d]
          split
          · rfl
          · cases d <;> simp only <;> split <;> rfl
      have ht : (op.apply b').transcript = b'.transcript := by rw [hstep]
      have ht2 : (op.apply b).transcript = b.transcript := by
        cases op with
        | kinds ks => simp only [BuilderOp.apply, ProofBuilder.commitmentKinds]; split <;> rfl
        | reveal idx d =>
          simp only [BuilderOp.apply, ProofBuilder.reveal]
          split
          · rfl
          · cases d <;> simp only <;> split <;> rfl
      have := ih (op.apply b) (op.apply b') (fun d => by rw [ht, ht2]; exact hlen d)
        (by rw [ht]; exact hstep)
      rw [ht] at this
      exact this
  have hlen : ∀ d, t.lenOfDirection d = t'.lenOfDirection d := by
    rintro (_ | _)
    · exact hl .sent
    · exact hl .received
  have hrb : runBuilder t' secrets ops = { runBuilder t secrets ops with transcript := t' } :=
    hsame ops (ProofBuilder.new t secrets) (ProofBuilder.new t' secrets) hlen rfl
  rw [hrb]
  obtain ⟨h1, _, _, _⟩ := runBuilder_const t secrets ops
  simp only [ProofBuilder.build, h1]
  have := C01_to_partial_noninterference t t' (runBuilder t secrets ops).querySent
    (runBuilder t secrets ops).queryRecv (hl .sent) (hl .received) (he .sent) (he .received)
  rw [this]

/-! ## C11 -/

/-- C11: building never panics. -/
theorem C11_build_no_panic (t : Transcript) (secrets : List PlaintextHashSecret)
    (ops : List BuilderOp) (cover : CoverFn) :
    (runBuilder t secrets ops).build cover ≠ .panic := by
  obtain ⟨h1, h2, _, _⟩ := runBuilder_const t secrets ops
  have hq := query_inBounds t secrets ops
  obtain ⟨pt, hpt, hr⟩ := C01_to_partial_redacts t (runBuilder t secrets ops).querySent
    (runBuilder t secrets ops).queryRecv (hq .sent) (hq .received)
  unfold ProofBuilder.build
  rw [h1, hpt]
  simp only
  split <;> simp

/-- C11: a proof that was built verifies against the honest commitments of its secrets and yields
the redaction of the transcript to the revealed positions. -/
theorem C11_build_verifies (t : Transcript) (secrets : List PlaintextHashSecret)
    (ops : List BuilderOp) (cover : CoverFn) (hc : CoverContract cover) (p : TranscriptProof)
    (provider : HashProvider) (cs : List PlaintextHash)
    (hlen : t.sent.length < 2 ^ 32 ∧ t.received.length < 2 ^ 32)
    (hcs : ∀ s ∈ secrets, ∃ c ∈ cs, HonestCommitment provider t s c)
    (h : (runBuilder t secrets ops).build cover = .ok p) :
    ∃ v, p.verify provider t.length cs = .ok v ∧
      Redacts t (runBuilder t secrets ops).query v := by
  obtain ⟨h1, h2, h3⟩ := build_ok_spec hc t secrets ops p h
  refine ⟨p.transcript, ?_, h1⟩
  rw [C09_verify_iff]
  refine ⟨rfl, ?_, ?_, ?_, ?_⟩
  · have := h1.len .sent
    simp only [PartialTranscript.data, Transcript.data] at this
    simp only [Transcript.length]; omega
  · have := h1.len .received
    simp only [PartialTranscript.data, Transcript.data] at this
    simp only [Transcript.length]; omega
  · intro s hs
    obtain ⟨hm, _, hsub⟩ := h2 s hs
    obtain ⟨c, hcm, ha, msg, hpa, hmsg, rfl⟩ := hcs s hm
    refine ⟨ha, msg, hpa, ?_, hcm⟩
    have hg := gather_bytesAt.2 hmsg
    rw [← gather_bytesAt]
    refine gather_congr hg ?_ ?_
    · rw [h1.len]; exact RangeSet.endD_le_of_inBounds (gather_inBounds hg)
    · intro i hi
      exact (h1.shown _ i (hsub i hi)).symm
  · intro d i
    rw [h1.authed]
    constructor
    · exact h3 d i
    · rintro ⟨s, hs, rfl, hi⟩
      exact (h2 s hs).2.2 i hi

/-! ## C14 -/

/-- C14: with a single commitment kind, building succeeds exactly when every revealed position lies
in a commitment of that kind that is itself entirely revealed. -/
theorem C14_single_kind_complete (t : Transcript) (secrets : List PlaintextHashSecret)
    (ops : List BuilderOp) (cover : CoverFn) (hc : CoverContract cover) (k : HashAlgId)
    (hk : (runBuilder t secrets ops).kinds = [k]) :
    (∃ p, (runBuilder t secrets ops).build cover = .ok p) ↔
      ∀ d, ∀ i ∈ (runBuilder t secrets ops).query d, ∃ s ∈ secrets, s.direction = d ∧
        s.alg = k ∧ i ∈ s.idx ∧ ∀ j ∈ s.idx, j ∈ (runBuilder t secrets ops).query d := by
  constructor
  · rintro ⟨p, hp⟩ d i hi
    obtain ⟨_, h2, h3⟩ := build_ok_spec hc t secrets ops p hp
    obtain ⟨s, hs, rfl, hm⟩ := h3 d i hi
    obtain ⟨a, b, c⟩ := h2 s hs
    rw [hk] at b
    exact ⟨s, a, rfl, by simpa using b, hm, c⟩
  · intro hcov
    obtain ⟨h1, h2, _, _⟩ := runBuilder_const t secrets ops
    have hq := query_inBounds t secrets ops
    generalize runBuilder t secrets ops = b at *
    subst h1 h2
    obtain ⟨pt, hpt, hr⟩ := C01_to_partial_redacts b.transcript b.querySent b.queryRecv
      (hq .sent) (hq .received)
    unfold ProofBuilder.build
    rw [hpt]
    simp only [hk]
    have hres : ∀ acc, let res := coverLoop cover b.hashSecrets [k] b.querySent b.queryRecv acc
        (∀ i, ¬ i ∈ res.1) ∧ (∀ i, ¬ i ∈ res.2.1) := by
      intro acc
      simp only [coverLoop]
      split
      · rename_i he
        rw [Bool.and_eq_true, RangeSet.isEmpty_iff, RangeSet.isEmpty_iff] at he
        exact he
      · constructor
        · intro i hi
          have hm := hi
          rw [hc.rest] at hm
          obtain ⟨s, hs, hd, ha, hmem, hsub⟩ := hcov .sent i hm.1
          exact hc.maximal _ _ i hi s (by simp [hs, hd, ha]) hsub hmem
        · intro i hi
          have hm := hi
          rw [hc.rest] at hm
          obtain ⟨s, hs, hd, ha, hmem, hsub⟩ := hcov .received i hm.1
          exact hc.maximal _ _ i hi s (by simp [hs, hd, ha]) hsub hmem
    have he := hres []
    rw [if_pos (by rw [Bool.and_eq_true, RangeSet.isEmpty_iff, RangeSet.isEmpty_iff]; exact he)]
    exact ⟨_, rfl⟩

/-- C14: the same for any preference list whose first kind covers everything. -/
theorem C14_first_kind_complete (t : Transcript) (secrets : List PlaintextHashSecret)
    (ops : List BuilderOp) (cover : CoverFn) (hc : CoverContract cover) (k : HashAlgId)
    (ks : List HashAlgId) (hk : (runBuilder t secrets ops).kinds = k :: ks)
    (hcov : ∀ d, ∀ i ∈ (runBuilder t secrets ops).query d, ∃ s ∈ secrets, s.direction = d ∧
      s.alg = k ∧ i ∈ s.idx ∧ ∀ j ∈ s.idx, j ∈ (runBuilder t secrets ops).query d) :
    ∃ p, (runBuilder t secrets ops).build cover = .ok p := by
  obtain ⟨h1, h2, _, _⟩ := runBuilder_const t secrets ops
  have hq := query_inBounds t secrets ops
  generalize runBuilder t secrets ops = b at *
  subst h1 h2
  obtain ⟨pt, hpt, hr⟩ := C01_to_partial_redacts b.transcript b.querySent b.queryRecv
    (hq .sent) (hq .received)
  unfold ProofBuilder.build
  rw [hpt]
  simp only [hk]
  have hstop : ∀ us ur acc, (∀ i, ¬ i ∈ us) → (∀ i, ¬ i ∈ ur) →
      coverLoop cover b.hashSecrets ks us ur acc = (us, ur, acc) := by
    intro us ur acc h1 h2
    cases ks with
    | nil => rfl
    | cons x xs =>
      simp only [coverLoop]
      rw [if_pos]
      rw [Bool.and_eq_true, RangeSet.isEmpty_iff, RangeSet.isEmpty_iff]; exact ⟨h1, h2⟩
  have hres : let res := coverLoop cover b.hashSecrets (k :: ks) b.querySent b.queryRecv []
      (∀ i, ¬ i ∈ res.1) ∧ (∀ i, ¬ i ∈ res.2.1) := by
    simp only [coverLoop]
    split
    · rename_i he
      rw [Bool.and_eq_true, RangeSet.isEmpty_iff, RangeSet.isEmpty_iff] at he
      exact he
    · have e1 : ∀ i, ¬ i ∈ (cover b.querySent
          (b.hashSecrets.filter fun h => h.direction = .sent ∧ h.alg = k)).2 := by
        intro i hi
        have hm := hi
        rw [hc.rest] at hm
        obtain ⟨s, hs, hd, ha, hmem, hsub⟩ := hcov .sent i hm.1
        exact hc.maximal _ _ i hi s (by simp [hs, hd, ha]) hsub hmem
      have e2 : ∀ i, ¬ i ∈ (cover b.queryRecv
          (b.hashSecrets.filter fun h => h.direction = .received ∧ h.alg = k)).2 := by
        intro i hi
        have hm := hi
        rw [hc.rest] at hm
        obtain ⟨s, hs, hd, ha, hmem, hsub⟩ := hcov .received i hm.1
        exact hc.maximal _ _ i hi s (by simp [hs, hd, ha]) hsub hmem
      rw [hstop _ _ _ e1 e2]
      exact ⟨e1, e2⟩
  rw [if_pos (by rw [Bool.and_eq_true, RangeSet.isEmpty_iff, RangeSet.isEmpty_iff]; exact hres)]
  exact ⟨_, rfl⟩

/-- Concrete data for the C11/C14 examples: kind 1 commits to 0..2, kind 2 to 1..3. -/
def exSecrets : List PlaintextHashSecret :=
  [⟨.sent, RangeSet.ofRange 0 2, 1, Vector.replicate 16 0⟩,
   ⟨.sent, RangeSet.ofRange 1 3, 2, Vector.replicate 16 0⟩]

/-- C14 (disagreement): the revealed range 0..3 is the union of two fully revealed commitments, every
position is committed and the reveal call succeeds, yet building is refused because the overlapping
commitments are of different kinds. -/
theorem C14_cross_kind_incomplete :
    let t := Transcript.mk [1, 2, 3] []
    let b := runBuilder t exSecrets [.reveal (RangeSet.ofRange 0 3) .sent]
    (∀ i ∈ b.query .sent, ∃ s ∈ exSecrets, s.direction = .sent ∧ i ∈ s.idx ∧ s.alg ∈ b.kinds ∧
      s.idx.isSubset (b.query .sent) = true) ∧
    b.query .sent = RangeSet.ofRange 0 3 ∧
    b.build greedyCover = .err .cover := by
  intro t b
  have hb : b.query .sent = RangeSet.ofRange 0 3 := by decide
  refine ⟨?_, hb, by decide⟩
  intro i hi
  rw [hb, RangeSet.mem_ofRange] at hi
  have : i = 0 ∨ i = 1 ∨ i = 2 := by omega
  rcases this with rfl | rfl | rfl <;> decide

/-- Non-vacuity of C11/C12: with both ranges in one kind the same reveal builds. -/
example :
    let t := Transcript.mk [1, 2, 3] []
    let ss := exSecrets.map fun s => { s with alg := 2 }
    ∃ p, (runBuilder t ss [.reveal (RangeSet.ofRange 0 3) .sent]).build greedyCover = .ok p ∧
      p.hashSecrets.length = 2 := by
  refine ⟨⟨⟨[1, 2, 3], [], RangeSet.ofRange 0 3, ∅⟩,
    [⟨.sent, RangeSet.ofRange 1 3, 2, Vector.replicate 16 0⟩,
     ⟨.sent, RangeSet.ofRange 0 2, 2, Vector.replicate 16 0⟩]⟩, ?_, rfl⟩
  decide

end Tlsn
