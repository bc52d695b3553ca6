import Verif.Sdk.Plan
import Verif.Config.Props
import Verif.Auth.Session
import Verif.Auth.Spec
import Verif.Proof.Spec

/-!
# Model of `SdkProver::reveal`, and C50 end to end

crates/sdk-core/src/prover.rs:377-493.
-/

namespace Tlsn.Sdk

/-- crates/sdk-core/src/prover.rs:386-392: one call per range. -/
def revealAll (d : Direction) (b : ProveBuilder) : List Rng → Except IndexError ProveBuilder
  | [] => .ok b
  | r :: rs =>
    match (match d with | .sent => b.revealSent [r] | .received => b.revealRecv [r]) with
    | .error e => .error e
    | .ok b' => revealAll d b' rs

/-- crates/sdk-core/src/prover.rs:407-413: one call per range, with the algorithm of the range. -/
def commitAll (d : Direction) (b : CommitBuilder) : List CommitRange → Except IndexError CommitBuilder
  | [] => .ok b
  | c :: cs =>
    match b.commitWithKind [(c.start, c.stop)] d c.algorithm.id with
    | .error e => .error e
    | .ok b' => commitAll d b' cs

/-- crates/sdk-core/src/prover.rs:384-423: the configuration `reveal` builds from its arguments.  The two error types of the code
are one here.  `order` is the order in which the hash set of commitments is listed. -/
def revealConfig (t : Transcript) (order : List CommitEntry → List CommitEntry) (reveal : Reveal)
    (commit : Option Commit) : Except IndexError ProveConfig :=
  match revealAll .sent (ProveBuilder.new t) reveal.sent with
  | .error e => .error e
  | .ok b1 =>
    match revealAll .received b1 reveal.recv with
    | .error e => .error e
    | .ok b2 =>
      let b3 := if reveal.serverIdentity then b2.setServerIdentity else b2
      match commit with
      | none => .ok b3.build
      | some c =>
        match commitAll .sent (CommitBuilder.new t) c.sent with
        | .error e => .error e
        | .ok c1 =>
          match commitAll .received c1 c.recv with
          | .error e => .error e
          | .ok c2 => .ok (b3.setTranscriptCommit (c2.build order)).build

/-- crates/sdk-core/src/types.rs:378-383 `HashOpening`. -/
structure Opening where
  hash : Bytes
  blinder : Bytes
  deriving DecidableEq, Repr

/-- crates/sdk-core/src/types.rs:393-398 `RevealOutput`. -/
structure RevealOutput where
  sent : List Opening := []
  recv : List Opening := []
  deriving DecidableEq, Repr

/-- The errors of crates/sdk-core/src/prover.rs:455-479; commitments of another kind do not exist (`TranscriptCommitment` and
`TranscriptSecret` have one variant). -/
inductive OutputError where
  | lengths
  | mismatch
  deriving DecidableEq, Repr

/-- crates/sdk-core/src/prover.rs:465-490: the loop of `build_reveal_output`. -/
def collectOpenings (out : RevealOutput) :
    List (PlaintextHash × PlaintextHashSecret) → Except OutputError RevealOutput
  | [] => .ok out
  | (c, s) :: rest =>
    if c.direction ≠ s.direction ∨ c.idx ≠ s.idx then .error .mismatch
    else
      let o : Opening := ⟨c.hash.value, s.blinder.toList⟩
      match c.direction with
      | .sent => collectOpenings { out with sent := out.sent ++ [o] } rest
      | .received => collectOpenings { out with recv := out.recv ++ [o] } rest

/-- crates/sdk-core/src/prover.rs:449-493 `build_reveal_output`. -/
def buildRevealOutput (out : ProverOutput) : Except OutputError RevealOutput :=
  if out.commitments.length ≠ out.secrets.length then .error .lengths
  else collectOpenings {} (out.commitments.zip out.secrets)

/-- The openings of a direction. -/
def RevealOutput.of (o : RevealOutput) : Direction → List Opening
  | .sent => o.sent
  | .received => o.recv

/-! ## The configuration -/

theorem revealStep (d : Direction) (b : ProveBuilder) (r : Rng) :
    (match d with | .sent => b.revealSent [r] | .received => b.revealRecv [r]) =
      b.revealInner d (RangeSet.ofRanges [r]) := by cases d <;> rfl

/-- What the calls for one direction do. -/
theorem revealAll_ok {d : Direction} {rs : List Rng} {b b' : ProveBuilder} (h : revealAll d b rs = .ok b') :
    b'.transcript = b.transcript ∧ b'.serverIdentity = b.serverIdentity ∧ b'.transcriptCommit = b.transcriptCommit ∧
    (∀ i, RangesMem i rs → i < (b.transcript.data d).length) ∧
    ∀ d' i, revealedIn b'.reveal d' i ↔ revealedIn b.reveal d' i ∨ (d = d' ∧ RangesMem i rs) := by
  induction rs generalizing b with
  | nil => cases h; refine ⟨rfl, rfl, rfl, ?_, ?_⟩ <;> simp [RangesMem]
  | cons r rs ih =>
    unfold revealAll at h
    rw [revealStep] at h
    unfold ProveBuilder.revealInner at h
    by_cases hb : (RangeSet.ofRanges [r]).endD > b.transcript.lenOfDirection d
    · rw [if_pos hb] at h; cases h
    · rw [if_neg hb] at h
      obtain ⟨h1, h2, h3, h4, h5⟩ := ih h
      rw [not_endD_gt] at hb
      have ht : (b.addReveal d (RangeSet.ofRanges [r])).transcript = b.transcript := rfl
      rw [ht] at h1 h4
      refine ⟨h1, h2, h3, ?_, ?_⟩
      · rintro i ⟨r', hr, hi⟩
        rcases List.mem_cons.1 hr with rfl | hr
        · exact hb i ⟨r', by simp, hi⟩
        · exact h4 i ⟨r', hr, hi⟩
      · intro d' i
        rw [h5, revealedIn_addReveal, RangeSet.mem_ofRanges]
        simp only [RangesMem, List.mem_cons, List.not_mem_nil, or_false, exists_eq_left, exists_eq_or_imp]
        constructor
        · rintro ((h | h) | h)
          · exact .inl h
          · exact .inr ⟨h.1, .inl h.2⟩
          · exact .inr ⟨h.1, .inr h.2⟩
        · rintro (h | ⟨h, h' | h'⟩)
          · exact .inl (.inl h)
          · exact .inl (.inr ⟨h, h'⟩)
          · exact .inr ⟨h, h'⟩

theorem revealAll_total {d : Direction} {rs : List Rng} {b : ProveBuilder}
    (h : ∀ i, RangesMem i rs → i < (b.transcript.data d).length) : ∃ b', revealAll d b rs = .ok b' := by
  induction rs generalizing b with
  | nil => exact ⟨b, rfl⟩
  | cons r rs ih =>
    unfold revealAll
    rw [revealStep]
    unfold ProveBuilder.revealInner
    rw [if_neg (not_endD_gt.2 fun i ⟨r', hr, hi⟩ => h i ⟨r', by simp_all, hi⟩)]
    exact ih (b := b.addReveal d (RangeSet.ofRanges [r])) fun i ⟨r', hr, hi⟩ => h i ⟨r', by simp [hr], hi⟩

/-- The position set of a commit range. -/
def CommitRange.idx (c : CommitRange) : RangeSet := RangeSet.ofRanges [(c.start, c.stop)]

/-- The entry of a commit range. -/
def CommitRange.entry (d : Direction) (c : CommitRange) : CommitEntry := ((d, c.idx), c.algorithm.id)

theorem commitAll_ok {d : Direction} {cs : List CommitRange} {b b' : CommitBuilder} (h : commitAll d b cs = .ok b') :
    b'.transcript = b.transcript ∧ (b.commits.Nodup → b'.commits.Nodup) ∧
    ∀ e, e ∈ b'.commits ↔ e ∈ b.commits ∨ ∃ c ∈ cs, e = c.entry d := by
  induction cs generalizing b with
  | nil => cases h; exact ⟨rfl, id, by simp⟩
  | cons c cs ih =>
    unfold commitAll CommitBuilder.commitWithKind at h
    by_cases hb : (RangeSet.ofRanges [(c.start, c.stop)]).endD > b.transcript.lenOfDirection d
    · rw [commitInner_err hb] at h; cases h
    · rw [commitInner_ok hb] at h
      obtain ⟨h1, h2, h3⟩ := ih h
      refine ⟨h1, fun hn => h2 ?_, fun e => ?_⟩
      · simp only
        split
        · exact hn
        · exact List.nodup_cons.2 ⟨by assumption, hn⟩
      · rw [h3]
        simp only
        have : e ∈ (if ((d, RangeSet.ofRanges [(c.start, c.stop)]), c.algorithm.id) ∈ b.commits then b.commits
            else ((d, RangeSet.ofRanges [(c.start, c.stop)]), c.algorithm.id) :: b.commits) ↔
            e ∈ b.commits ∨ e = c.entry d := by
          split
          · rename_i hm
            refine ⟨.inl, ?_⟩
            rintro (h | rfl)
            · exact h
            · exact hm
          · simp only [List.mem_cons]
            exact ⟨fun h => h.symm, fun h => h.symm⟩
        rw [this]
        simp only [List.mem_cons, exists_eq_or_imp, or_assoc]

theorem commitAll_total {d : Direction} {cs : List CommitRange} {b : CommitBuilder}
    (h : ∀ c ∈ cs, ∀ i, c.start ≤ i → i < c.stop → i < (b.transcript.data d).length) :
    ∃ b', commitAll d b cs = .ok b' := by
  induction cs generalizing b with
  | nil => exact ⟨b, rfl⟩
  | cons c cs ih =>
    unfold commitAll CommitBuilder.commitWithKind
    rw [commitInner_ok (not_endD_gt.2 fun i hi => by
      obtain ⟨r, hr, h1, h2⟩ := hi
      simp only [List.mem_cons, List.not_mem_nil, or_false] at hr
      subst hr
      exact h c (by simp) i h1 h2)]
    exact ih fun c' hc' => h c' (List.mem_cons_of_mem _ hc')

/-- The commit ranges of a direction in an optional commit argument. -/
def commitArg (commit : Option Commit) (d : Direction) : List CommitRange :=
  match commit, d with
  | none, _ => []
  | some c, .sent => c.sent
  | some c, .received => c.recv

/-- The ranges of a direction in a reveal argument. -/
def Reveal.of (r : Reveal) : Direction → List Rng
  | .sent => r.sent
  | .received => r.recv

theorem revealConfig_ok {t : Transcript} {order : List CommitEntry → List CommitEntry} (ho : ∀ l, (order l).Perm l)
    {reveal : Reveal} {commit : Option Commit} {cfg : ProveConfig} (h : revealConfig t order reveal commit = .ok cfg) :
    cfg.serverIdentity = reveal.serverIdentity ∧
    (∀ d i, revealedIn cfg.reveal d i ↔ RangesMem i (reveal.of d)) ∧
    (cfg.transcriptCommit = none ↔ commit = none) ∧
    ∀ cc, cfg.transcriptCommit = some cc → cc.commits.Nodup ∧
      ∀ d idx k, ((d, idx), k) ∈ cc.commits ↔ ∃ c ∈ commitArg commit d, idx = c.idx ∧ k = c.algorithm.id := by
  unfold revealConfig at h
  cases h1 : revealAll .sent (ProveBuilder.new t) reveal.sent with
  | error e => rw [h1] at h; cases h
  | ok b1 =>
    rw [h1] at h
    simp only at h
    cases h2 : revealAll .received b1 reveal.recv with
    | error e => rw [h2] at h; cases h
    | ok b2 =>
      rw [h2] at h
      simp only at h
      obtain ⟨_, a2, a3, _, a5⟩ := revealAll_ok h1
      obtain ⟨_, c2, c3, _, c5⟩ := revealAll_ok h2
      have hrev : ∀ d i, revealedIn b2.reveal d i ↔ RangesMem i (reveal.of d) := by
        intro d i
        rw [c5, a5]
        cases d <;> simp [revealedIn, ProveBuilder.new, Reveal.of]
      have hb3 : ∀ b3, b3 = (if reveal.serverIdentity then b2.setServerIdentity else b2) →
          b3.serverIdentity = reveal.serverIdentity ∧ b3.reveal = b2.reveal ∧ b3.transcriptCommit = none := by
        rintro b3 rfl
        have : b2.serverIdentity = false ∧ b2.transcriptCommit = none := ⟨c2.trans a2, c3.trans a3⟩
        cases hs : reveal.serverIdentity <;> simp [this, ProveBuilder.setServerIdentity]
      generalize (if reveal.serverIdentity then b2.setServerIdentity else b2) = b3 at h hb3
      obtain ⟨e1, e2, e3⟩ := hb3 b3 rfl
      cases commit with
      | none =>
        cases h
        refine ⟨e1, fun d i => ?_, ?_, ?_⟩
        · rw [← hrev, ← e2]; rfl
        · simpa [ProveBuilder.build] using e3
        · intro cc hcc
          rw [show b3.build.transcriptCommit = b3.transcriptCommit from rfl, e3] at hcc; cases hcc
      | some c =>
        simp only at h
        cases h3 : commitAll .sent (CommitBuilder.new t) c.sent with
        | error e => rw [h3] at h; cases h
        | ok d1 =>
          rw [h3] at h
          simp only at h
          cases h4 : commitAll .received d1 c.recv with
          | error e => rw [h4] at h; cases h
          | ok d2 =>
            rw [h4] at h
            cases h
            obtain ⟨_, n1, m1⟩ := commitAll_ok h3
            obtain ⟨_, n2, m2⟩ := commitAll_ok h4
            refine ⟨e1, fun d i => ?_, by simp [ProveBuilder.build, ProveBuilder.setTranscriptCommit], ?_⟩
            · rw [← hrev, ← e2]; rfl
            · intro cc hcc
              cases hcc
              have hp := ho d2.commits
              refine ⟨hp.nodup_iff.2 (n2 (n1 List.nodup_nil)), fun d idx k => ?_⟩
              simp only [CommitBuilder.build]
              rw [hp.mem_iff, m2, m1]
              simp only [CommitBuilder.new, List.not_mem_nil, false_or, CommitRange.entry, Prod.mk.injEq]
              cases d <;> simp [commitArg]

theorem revealConfig_total {t : Transcript} {order : List CommitEntry → List CommitEntry}
    {reveal : Reveal} {commit : Option Commit} (hr : ∀ d i, RangesMem i (reveal.of d) → i < (t.data d).length)
    (hc : ∀ d, ∀ c ∈ commitArg commit d, ∀ i, c.start ≤ i → i < c.stop → i < (t.data d).length) :
    ∃ cfg, revealConfig t order reveal commit = .ok cfg := by
  unfold revealConfig
  obtain ⟨b1, h1⟩ := revealAll_total (d := .sent) (rs := reveal.sent) (b := ProveBuilder.new t) (hr .sent)
  have ht := (revealAll_ok h1).1
  obtain ⟨b2, h2⟩ := revealAll_total (d := .received) (rs := reveal.recv) (b := b1) (by rw [ht]; exact hr .received)
  rw [h1]
  simp only [h2]
  cases commit with
  | none => exact ⟨_, rfl⟩
  | some c =>
    obtain ⟨c1, h3⟩ := commitAll_total (d := .sent) (cs := c.sent) (b := CommitBuilder.new t) (hc .sent)
    have ht' := (commitAll_ok h3).1
    obtain ⟨c2, h4⟩ := commitAll_total (d := .received) (cs := c.recv) (b := c1) (by rw [ht']; exact hc .received)
    simp only [h3, h4]
    exact ⟨_, rfl⟩

theorem plan_commitArg (plan : RevealPlan) (d : Direction) : commitArg plan.commit d = plan.commitOf d := by
  cases hc : plan.commit <;> cases d <;> simp [commitArg, RevealPlan.commitOf, hc]

theorem plan_revealOf (plan : RevealPlan) (d : Direction) : plan.reveal.of d = plan.revealOf d := by cases d <;> rfl

/-- **C50** End to end: passing the computed lists to `reveal` never fails on a transcript the parser's spans fit in, and
the request sent to the verifier reveals the server's identity and exactly the positions selected by a REVEAL handler; it
asks for a commitment exactly for the ranges of the HASH handlers. -/
theorem C50_request (parser : HttpParser) (re : RegexEngine) (t : Transcript) (handlers : List Handler)
    (hp : ∀ h ∈ handlers, h.Plain) (request response : HttpMessage) (hq : parser.request t.sent = some request)
    (hr : parser.response t.received = some response) (hqb : MessageBelow t.sent.length request)
    (hrb : MessageBelow t.received.length response)
    (hre : ∀ pat f, re pat = some f → ∀ x r, r ∈ f x → r.1 ≤ r.2 ∧ r.2 ≤ x.length) (plan : RevealPlan)
    (h : computeReveal parser re t.sent t.received handlers = .ok plan)
    (order : List CommitEntry → List CommitEntry) (ho : ∀ l, (order l).Perm l) :
    ∃ cfg, revealConfig t order plan.reveal plan.commit = .ok cfg ∧ cfg.toRequest.serverIdentity = true ∧
      (∀ d i, revealedIn cfg.toRequest.reveal d i ↔ ∃ x ∈ handlers, x.direction = d ∧ x.action = .reveal ∧
        Selects re x (messageOf request response d) (t.data d) i) ∧
      (∀ d idx k, (d, idx, k) ∈ cfg.toRequest.hashes ↔
        ∃ c ∈ plan.commitOf d, k = c.algorithm.id ∧ ∀ i, i ∈ idx ↔ c.start ≤ i ∧ i < c.stop) := by
  have hbytes : ∀ d, bytesOf t.sent t.received d = t.data d := by intro d; cases d <;> rfl
  have hbelow : ∀ d, MessageBelow (t.data d).length (messageOf request response d) := by
    intro d; cases d
    · exact hqb
    · exact hrb
  have hrev := C50_reveals parser re t.sent t.received handlers hp request response hq hr plan h
  have hcom := C50_commits parser re t.sent t.received handlers hp request response hq hr plan h
  obtain ⟨cfg, hcfg⟩ := revealConfig_total (t := t) (order := order) (reveal := plan.reveal) (commit := plan.commit)
    (fun d i hi => by
      rw [plan_revealOf] at hi
      obtain ⟨x, hx, rfl, _, hs⟩ := (hrev d i).1 hi
      rw [hbytes] at hs
      exact selects_below (hbelow _) hre hs)
    (fun d c hc i h1 h2 => by
      rw [plan_commitArg] at hc
      obtain ⟨x, hx, rfl, _, hs⟩ := (hcom d c.algorithm i).1 ⟨c, hc, rfl, h1, h2⟩
      rw [hbytes] at hs
      exact selects_below (hbelow _) hre hs)
  obtain ⟨h1, h2, h3, h4⟩ := revealConfig_ok ho hcfg
  obtain ⟨-, -, -, -, -, -, -, hsi, -⟩ := C50_plan parser re t.sent t.received handlers plan h
  refine ⟨cfg, hcfg, h1.trans hsi, fun d i => ?_, fun d idx k => ?_⟩
  · rw [show cfg.toRequest.reveal = cfg.reveal from rfl, h2, plan_revealOf, hrev]
    simp only [hbytes]
  · have hidx : ∀ c : CommitRange, idx = c.idx ↔ ∀ i, i ∈ idx ↔ c.start ≤ i ∧ i < c.stop := by
      intro c
      rw [RangeSet.ext_iff]
      simp [CommitRange.idx]
    cases hcc : cfg.transcriptCommit with
    | none =>
      have hn := h3.1 hcc
      have : ∀ d, plan.commitOf d = [] := by intro d; rw [← plan_commitArg, hn]; cases d <;> rfl
      simp [ProveRequest.hashes, ProveConfig.toRequest, hcc, this]
    | some cc =>
      have := (h4 cc hcc).2 d idx k
      rw [plan_commitArg] at this
      simp only [ProveRequest.hashes, ProveConfig.toRequest, hcc, Option.map_some, CommitConfig.toRequest, ← hidx]
      simp only [List.mem_map, Prod.mk.injEq]
      constructor
      · rintro ⟨⟨⟨a, b⟩, c⟩, h5, rfl, rfl, rfl⟩
        obtain ⟨c, h6, h7, h8⟩ := this.1 h5
        exact ⟨c, h6, h8, h7⟩
      · rintro ⟨c, h6, h8, h7⟩
        exact ⟨_, this.2 ⟨c, h6, h7, h8⟩, rfl, rfl, rfl⟩

end Tlsn.Sdk
