import Verif.Config.Spec
import Mathlib.Data.List.Induction

/-!
# C15–C17: configuration builders
-/

namespace Tlsn

theorem lenOfDirection_eq (t : Transcript) (d : Direction) :
    t.lenOfDirection d = (t.data d).length := by cases d <;> rfl

theorem not_endD_gt {t : Transcript} {d : Direction} {r : List Rng} :
    ¬ (RangeSet.ofRanges r).endD > t.lenOfDirection d ↔ RangesInBounds t d r := by
  rw [Nat.not_lt, RangeSet.endD_le_iff, lenOfDirection_eq]
  exact ⟨fun h i hi => h i (RangeSet.mem_ofRanges.2 hi), fun h i hi => h i (RangeSet.mem_ofRanges.1 hi)⟩

theorem runCommit_snoc (t : Transcript) (ops : List CommitOp) (op : CommitOp) :
    runCommit t (ops ++ [op]) =
      keepOnError (runCommit t ops) (op.call (runCommit t ops)) := by
  simp [runCommit, List.foldl_append]

/-- Call on a builder: which entry is added, if any. -/
theorem CommitOp.call_eq (b : CommitBuilder) (op : CommitOp) :
    (∃ k, op = .defaultKind k ∧ op.asks = none ∧ op.call b = .ok (b.setDefaultKind k)) ∨
    (∃ r d ko, op.asks = some (r, d, ko) ∧
      op.call b = b.commitInner (RangeSet.ofRanges r) d (ko.getD b.defaultKind)) := by
  cases op with
  | defaultKind k => exact .inl ⟨k, rfl, rfl, rfl⟩
  | commitWithKind r d k => exact .inr ⟨r, d, some k, rfl, rfl⟩
  | commit r d => exact .inr ⟨r, d, none, rfl, rfl⟩
  | commitSent r => exact .inr ⟨r, .sent, none, rfl, rfl⟩
  | commitRecv r => exact .inr ⟨r, .received, none, rfl, rfl⟩

theorem commitInner_ok {b : CommitBuilder} {idx : RangeSet} {d : Direction} {k : HashAlgId}
    (h : ¬ idx.endD > b.transcript.lenOfDirection d) :
    b.commitInner idx d k = .ok { b with commits :=
      if ((d, idx), k) ∈ b.commits then b.commits else ((d, idx), k) :: b.commits } := by
  simp [CommitBuilder.commitInner, h]

theorem commitInner_err {b : CommitBuilder} {idx : RangeSet} {d : Direction} {k : HashAlgId}
    (h : idx.endD > b.transcript.lenOfDirection d) :
    b.commitInner idx d k = .error .index := by
  simp [CommitBuilder.commitInner, h]

theorem defaultKindAfter_snoc_asks (ops : List CommitOp) (op : CommitOp) {x}
    (h : op.asks = some x) : defaultKindAfter (ops ++ [op]) = defaultKindAfter ops := by
  unfold defaultKindAfter
  cases op <;> simp_all [CommitOp.asks, List.filterMap_append]

theorem askedAt_snoc (t : Transcript) (ops : List CommitOp) (op : CommitOp) (d : Direction)
    (idx : RangeSet) (k : HashAlgId) :
    (∃ n, AskedAt t (ops ++ [op]) n d idx k) ↔
      (∃ n, AskedAt t ops n d idx k) ∨
      (∃ r ko, op.asks = some (r, d, ko) ∧ RangesInBounds t d r ∧ (∀ i, i ∈ idx ↔ RangesMem i r) ∧
        k = ko.getD (defaultKindAfter ops)) := by
  constructor
  · rintro ⟨n, op', r, ko, h1, h2, h3, h4, h5⟩
    rcases Nat.lt_trichotomy n ops.length with hn | hn | hn
    · left
      refine ⟨n, op', r, ko, ?_, h2, h3, h4, ?_⟩
      · rwa [List.getElem?_append_left hn] at h1
      · rwa [List.take_append_of_le_length (by omega)] at h5
    · right
      subst hn
      simp at h1 h5
      subst h1
      exact ⟨r, ko, h2, h3, h4, h5⟩
    · rw [List.getElem?_eq_none (by simp; omega)] at h1
      cases h1
  · rintro (⟨n, op', r, ko, h1, h2, h3, h4, h5⟩ | ⟨r, ko, h2, h3, h4, h5⟩)
    · have hn := (List.getElem?_eq_some_iff.1 h1).1
      refine ⟨n, op', r, ko, ?_, h2, h3, h4, ?_⟩
      · rwa [List.getElem?_append_left hn]
      · rwa [List.take_append_of_le_length (by omega)]
    · exact ⟨ops.length, op, r, ko, by simp, h2, h3, h4, by simpa using h5⟩

theorem runCommit_inv (t : Transcript) (ops : List CommitOp) :
    (runCommit t ops).transcript = t ∧
    (runCommit t ops).defaultKind = defaultKindAfter ops ∧
    (runCommit t ops).commits.Nodup ∧
    ∀ d idx k, ((d, idx), k) ∈ (runCommit t ops).commits ↔ ∃ n, AskedAt t ops n d idx k := by
  induction ops using List.reverseRecOn with
  | nil =>
    refine ⟨rfl, rfl, List.nodup_nil, fun d idx k => ?_⟩
    simp [runCommit, CommitBuilder.new, AskedAt]
  | append_singleton ops op ih =>
    obtain ⟨ht, hk, hnd, hm⟩ := ih
    rw [runCommit_snoc]
    rcases CommitOp.call_eq (runCommit t ops) op with ⟨k0, rfl, ha, hc⟩ | ⟨r, d, ko, ha, hc⟩
    · rw [hc, keepOnError_ok]
      refine ⟨ht, ?_, hnd, fun d idx k => ?_⟩
      · simp [CommitBuilder.setDefaultKind, defaultKindAfter]
      · simp only [CommitBuilder.setDefaultKind, askedAt_snoc, hm, ha]
        simp
    · rw [hc]
      by_cases hb : (RangeSet.ofRanges r).endD > (runCommit t ops).transcript.lenOfDirection d
      · rw [commitInner_err hb, keepOnError_error]
        refine ⟨ht, ?_, hnd, fun d' idx k => ?_⟩
        · rw [defaultKindAfter_snoc_asks _ _ ha]; exact hk
        · rw [askedAt_snoc, hm]
          constructor
          · exact .inl
          · rintro (h | ⟨r', ko', h1, h2, _⟩)
            · exact h
            · rw [ha] at h1; cases h1
              rw [ht] at hb
              exact absurd hb (not_endD_gt.2 h2)
      · rw [commitInner_ok hb, keepOnError_ok]
        rw [ht, not_endD_gt] at hb
        refine ⟨ht, ?_, ?_, fun d' idx k => ?_⟩
        · rw [defaultKindAfter_snoc_asks _ _ ha]; exact hk
        · simp only
          split
          · exact hnd
          · exact List.nodup_cons.2 ⟨by assumption, hnd⟩
        · rw [askedAt_snoc, ← hm]
          have key : ((d', idx), k) ∈ (if ((d, RangeSet.ofRanges r), ko.getD (runCommit t ops).defaultKind)
              ∈ (runCommit t ops).commits then (runCommit t ops).commits else
                ((d, RangeSet.ofRanges r), ko.getD (runCommit t ops).defaultKind) ::
                  (runCommit t ops).commits) ↔
              ((d', idx), k) ∈ (runCommit t ops).commits ∨
              ((d', idx), k) = ((d, RangeSet.ofRanges r), ko.getD (runCommit t ops).defaultKind) := by
            split
            · constructor
              · exact .inl
              · rintro (h | h)
                · exact h
                · rw [h]; assumption
            · simp [or_comm]
          rw [key, hk]
          constructor
          · rintro (h | h)
            · exact .inl h
            · cases h
              exact .inr ⟨r, ko, ha, hb, fun i => RangeSet.mem_ofRanges, rfl⟩
          · rintro (h | ⟨r', ko', h1, h2, h3, h4⟩)
            · exact .inl h
            · rw [ha] at h1; cases h1
              right
              have : idx = RangeSet.ofRanges r :=
                RangeSet.ext fun i => (h3 i).trans RangeSet.mem_ofRanges.symm
              rw [this, h4]

/-- **C15** Both the configuration and the request report that there is something to hash exactly if
some call asked for a commitment in bounds. -/
theorem C15_has_hash (t : Transcript) (ops : List CommitOp)
    (order : List CommitEntry → List CommitEntry) (horder : ∀ l, (order l).Perm l) :
    (((runCommit t ops).build order).hasHash = true ↔ ∃ n d idx k, AskedAt t ops n d idx k) ∧
    ((runCommit t ops).build order).toRequest.hasHash = ((runCommit t ops).build order).hasHash := by
  obtain ⟨-, -, -, hm⟩ := runCommit_inv t ops
  constructor
  · simp only [CommitConfig.hasHash, CommitBuilder.build, List.any_eq_true, and_true]
    constructor
    · rintro ⟨⟨⟨d, idx⟩, k⟩, h⟩
      obtain ⟨n, hn⟩ := (hm _ _ _).1 ((horder _).mem_iff.1 h)
      exact ⟨n, d, idx, k, hn⟩
    · rintro ⟨n, d, idx, k, h⟩
      exact ⟨_, (horder _).mem_iff.2 ((hm _ _ _).2 ⟨n, h⟩)⟩
  · simp only [CommitConfig.hasHash, CommitConfig.toRequest, CommitRequest.hasHash]
    generalize ((runCommit t ops).build order).commits = l
    cases l <;> simp

/-- **C15** The request contains a commitment exactly if some call asked for it in bounds, with the
kind named in the call or the default kind in force at that call, and contains it once.  Holds for
every order in which the hash set lists its elements. -/
theorem C15_request_exact (t : Transcript) (ops : List CommitOp)
    (order : List CommitEntry → List CommitEntry) (horder : ∀ l, (order l).Perm l)
    (d : Direction) (idx : RangeSet) (k : HashAlgId) :
    ((d, idx, k) ∈ ((runCommit t ops).build order).toRequest.hash ↔
      ∃ n, AskedAt t ops n d idx k) ∧
    ((runCommit t ops).build order).toRequest.hash.Nodup := by
  obtain ⟨-, -, hnd, hm⟩ := runCommit_inv t ops
  constructor
  · rw [← hm]
    simp only [CommitConfig.toRequest, CommitBuilder.build, List.mem_map, (horder _).mem_iff]
    constructor
    · rintro ⟨⟨⟨_, _⟩, _⟩, h, e⟩; cases e; exact h
    · intro h; exact ⟨_, h, rfl⟩
  · refine List.Pairwise.map _ ?_ (((horder _).nodup_iff).2 hnd)
    intro x y hxy h
    apply hxy
    revert x y
    rintro ⟨⟨a, b⟩, c⟩ ⟨⟨a', b'⟩, c'⟩ _ h
    cases h; rfl

/-- **C15** Everything in the configuration lies inside the transcript. -/
theorem C15_in_bounds (t : Transcript) (ops : List CommitOp)
    (order : List CommitEntry → List CommitEntry) (horder : ∀ l, (order l).Perm l)
    (d : Direction) (idx : RangeSet) (k : HashAlgId)
    (h : ((d, idx), k) ∈ ((runCommit t ops).build order).commits) :
    ∀ i ∈ idx, i < (t.data d).length := by
  obtain ⟨-, -, -, hm⟩ := runCommit_inv t ops
  rw [CommitBuilder.build, (horder _).mem_iff, hm] at h
  obtain ⟨n, op, r, ko, _, _, h3, h4, _⟩ := h
  exact fun i hi => h3 i ((h4 i).1 hi)

/-- **C15** A call fails exactly when it asks for a position outside the transcript, and a call
never touches anything but the default kind (`default_kind`) or the entries (all others). -/
theorem C15_call_fails_iff (t : Transcript) (ops : List CommitOp) (op : CommitOp) :
    (∃ e, op.call (runCommit t ops) = .error e) ↔
      ∃ r d ko, op.asks = some (r, d, ko) ∧ ¬ RangesInBounds t d r := by
  obtain ⟨ht, -⟩ := runCommit_inv t ops
  rcases CommitOp.call_eq (runCommit t ops) op with ⟨k0, rfl, ha, hc⟩ | ⟨r, d, ko, ha, hc⟩
  · simp [hc, ha]
  · rw [hc, ha]
    by_cases hb : (RangeSet.ofRanges r).endD > (runCommit t ops).transcript.lenOfDirection d
    · rw [commitInner_err hb]
      rw [ht] at hb
      exact ⟨fun _ => ⟨r, d, ko, rfl, fun h => not_endD_gt.2 h hb⟩, fun _ => ⟨_, rfl⟩⟩
    · rw [commitInner_ok hb]
      rw [ht, not_endD_gt] at hb
      constructor
      · rintro ⟨e, h⟩; cases h
      · rintro ⟨r', d', ko', h, hn⟩; cases h; exact absurd hb hn

/-- A non-trivial history: two kinds, a failing call, a duplicate. -/
example :
    ((runCommit ⟨[1, 2, 3, 4], [5, 6]⟩
      [.commitSent [(0, 2)], .commitRecv [(1, 5)], .defaultKind 1, .commitSent [(3, 4), (0, 2)],
       .commitWithKind [(0, 1), (1, 2)] .sent 2]).build id).toRequest.hash =
    [(.sent, RangeSet.ofRanges [(0, 2), (3, 4)], 1), (.sent, RangeSet.ofRange 0 2, 2)] := by
  decide

/-! ## C16 -/

theorem revealedIn_addReveal (b : ProveBuilder) (d d' : Direction) (idx : RangeSet) (i : Nat) :
    revealedIn (b.addReveal d idx).reveal d' i ↔
      revealedIn b.reveal d' i ∨ (d = d' ∧ i ∈ idx) := by
  cases d <;> cases d' <;> cases hr : b.reveal <;>
    simp [ProveBuilder.addReveal, revealedIn, hr]

theorem runProve_snoc (t : Transcript) (ops : List ProveOp) (op : ProveOp) :
    runProve t (ops ++ [op]) =
      keepOnError (runProve t ops) (op.call (runProve t ops)) := by
  simp [runProve, List.foldl_append]

theorem revealInner_step (t : Transcript) (b : ProveBuilder) (ht : b.transcript = t)
    (d d' : Direction) (r : List Rng) (i : Nat) :
    revealedIn (keepOnError b (b.revealInner d (RangeSet.ofRanges r))).reveal d' i ↔
      revealedIn b.reveal d' i ∨ (d = d' ∧ RangesInBounds t d r ∧ RangesMem i r) := by
  unfold ProveBuilder.revealInner
  by_cases hb : (RangeSet.ofRanges r).endD > b.transcript.lenOfDirection d
  · rw [if_pos hb]
    rw [ht] at hb
    have : ¬ RangesInBounds t d r := fun h => not_endD_gt.2 h hb
    simp [this]
  · rw [if_neg hb]
    rw [ht, not_endD_gt] at hb
    simp only [keepOnError_ok, revealedIn_addReveal, hb, RangeSet.mem_ofRanges, RangesMem, true_and]

theorem call_const (b : ProveBuilder) (op : ProveOp) :
    (keepOnError b (op.call b)).transcript = b.transcript := by
  cases op <;>
    simp only [ProveOp.call, ProveBuilder.revealRanges, ProveBuilder.revealSent,
      ProveBuilder.revealRecv, ProveBuilder.revealInner] <;> (try split) <;> rfl

theorem runProve_transcript (t : Transcript) (ops : List ProveOp) :
    (runProve t ops).transcript = t := by
  induction ops using List.reverseRecOn with
  | nil => rfl
  | append_singleton ops op ih => rw [runProve_snoc, call_const, ih]

theorem runProve_reveal (t : Transcript) (ops : List ProveOp) (d : Direction) (i : Nat) :
    revealedIn (runProve t ops).reveal d i ↔ ∃ op ∈ ops, op.asksFor t d i := by
  induction ops using List.reverseRecOn with
  | nil => simp [runProve, ProveBuilder.new, revealedIn]
  | append_singleton ops op ih =>
    rw [runProve_snoc]
    have hrhs : (∃ op' ∈ ops ++ [op], op'.asksFor t d i) ↔
        (∃ op' ∈ ops, op'.asksFor t d i) ∨ op.asksFor t d i := by
      simp [or_and_right, exists_or]
    rw [hrhs, ← ih]
    have ht := runProve_transcript t ops
    cases op with
    | serverIdentity => simp [ProveOp.call, ProveBuilder.setServerIdentity, ProveOp.asksFor]
    | transcriptCommit c => simp [ProveOp.call, ProveBuilder.setTranscriptCommit, ProveOp.asksFor]
    | reveal d' r =>
      simp only [ProveOp.call, ProveBuilder.revealRanges, revealInner_step t _ ht, ProveOp.asksFor]
      constructor
      · rintro (h | ⟨rfl, h⟩); exacts [.inl h, .inr ⟨rfl, h⟩]
      · rintro (h | ⟨rfl, h⟩); exacts [.inl h, .inr ⟨rfl, h⟩]
    | revealSent r =>
      simp only [ProveOp.call, ProveBuilder.revealSent, revealInner_step t _ ht, ProveOp.asksFor]
      constructor
      · rintro (h | ⟨rfl, h⟩); exacts [.inl h, .inr ⟨rfl, h⟩]
      · rintro (h | ⟨rfl, h⟩); exacts [.inl h, .inr ⟨rfl, h⟩]
    | revealRecv r =>
      simp only [ProveOp.call, ProveBuilder.revealRecv, revealInner_step t _ ht, ProveOp.asksFor]
      constructor
      · rintro (h | ⟨rfl, h⟩); exacts [.inl h, .inr ⟨rfl, h⟩]
      · rintro (h | ⟨rfl, h⟩); exacts [.inl h, .inr ⟨rfl, h⟩]
    | revealSentAll =>
      simp only [ProveOp.call, ProveBuilder.revealSentAll, keepOnError_ok, revealedIn_addReveal, ProveOp.asksFor,
        ht, RangeSet.mem_ofRange, lenOfDirection_eq]
      cases d <;> simp
    | revealRecvAll =>
      simp only [ProveOp.call, ProveBuilder.revealRecvAll, keepOnError_ok, revealedIn_addReveal, ProveOp.asksFor,
        ht, RangeSet.mem_ofRange, lenOfDirection_eq]
      cases d <;> simp

/-- **C16** A position is revealed by the request of the built configuration exactly if some call
asked for it with ranges lying inside the transcript. -/
theorem C16_reveal_exact (t : Transcript) (ops : List ProveOp) (d : Direction) (i : Nat) :
    revealedIn (runProve t ops).build.toRequest.reveal d i ↔ ∃ op ∈ ops, op.asksFor t d i :=
  runProve_reveal t ops d i

/-- **C16** Nothing outside the transcript is ever revealed. -/
theorem C16_in_bounds (t : Transcript) (ops : List ProveOp) (d : Direction) (i : Nat)
    (h : revealedIn (runProve t ops).build.toRequest.reveal d i) : i < (t.data d).length := by
  obtain ⟨op, -, h⟩ := (C16_reveal_exact t ops d i).1 h
  cases op <;> simp only [ProveOp.asksFor] at h
  · obtain ⟨-, h1, h2⟩ := h; exact h1 i h2
  · obtain ⟨-, h1, h2⟩ := h; exact h1 i h2
  · obtain ⟨-, h1, h2⟩ := h; exact h1 i h2
  · exact h.2
  · exact h.2

/-- **C16** `reveal_sent_all` and `reveal_recv_all` reveal the whole direction, whatever else is
called before or after. -/
theorem C16_reveal_all (t : Transcript) (ops : List ProveOp) (i : Nat) :
    (ProveOp.revealSentAll ∈ ops → i < t.sent.length →
      revealedIn (runProve t ops).build.toRequest.reveal .sent i) ∧
    (ProveOp.revealRecvAll ∈ ops → i < t.received.length →
      revealedIn (runProve t ops).build.toRequest.reveal .received i) :=
  ⟨fun h hi => (C16_reveal_exact t ops .sent i).2 ⟨_, h, rfl, hi⟩,
   fun h hi => (C16_reveal_exact t ops .received i).2 ⟨_, h, rfl, hi⟩⟩

/-- The identity flag and commitments of the builder after a history: identity if ever asked, last
commitment configuration. -/
theorem runProve_flags (t : Transcript) (ops : List ProveOp) :
    ((runProve t ops).serverIdentity = true ↔ ProveOp.serverIdentity ∈ ops) ∧
    (runProve t ops).transcriptCommit =
      (ops.filterMap fun | .transcriptCommit c => some c | _ => none).getLast? := by
  induction ops using List.reverseRecOn with
  | nil => simp [runProve, ProveBuilder.new]
  | append_singleton ops op ih =>
    rw [runProve_snoc]
    have hr : ∀ d r, (keepOnError (runProve t ops) ((runProve t ops).revealInner d r)).serverIdentity = (runProve t ops).serverIdentity ∧
        (keepOnError (runProve t ops) ((runProve t ops).revealInner d r)).transcriptCommit =
          (runProve t ops).transcriptCommit := by
      intro d r
      unfold ProveBuilder.revealInner
      split <;> exact ⟨rfl, rfl⟩
    cases op <;>
      simp_all [ProveOp.call, ProveBuilder.setServerIdentity, ProveBuilder.setTranscriptCommit,
        ProveBuilder.revealRanges, ProveBuilder.revealSent, ProveBuilder.revealRecv,
        ProveBuilder.revealSentAll, ProveBuilder.revealRecvAll, ProveBuilder.addReveal]

/-- **C16** The server identity is requested exactly if it was asked for, and the requested
commitments are those of the configuration passed last. -/
theorem C16_other_fields (t : Transcript) (ops : List ProveOp) :
    ((runProve t ops).build.toRequest.serverIdentity = true ↔ ProveOp.serverIdentity ∈ ops) ∧
    (runProve t ops).build.toRequest.transcriptCommit =
      ((ops.filterMap fun | .transcriptCommit c => some c | _ => none).getLast?).map
        CommitConfig.toRequest := by
  obtain ⟨h1, h2⟩ := runProve_flags t ops
  exact ⟨h1, by simp [ProveConfig.toRequest, ProveBuilder.build, h2]⟩

/-- **C16** A reveal call fails exactly when one of its positions lies outside the transcript. -/
theorem C16_call_fails_iff (t : Transcript) (ops : List ProveOp) (d : Direction) (r : List Rng) :
    ((∃ e, (runProve t ops).revealRanges d r = .error e) ↔ ¬ RangesInBounds t d r) := by
  have ht := runProve_transcript t ops
  unfold ProveBuilder.revealRanges ProveBuilder.revealInner
  rw [ht, ← not_endD_gt]
  split
  · simp_all; exact ⟨.index⟩
  · simp_all

example :
    let c := (runProve ⟨[1, 2, 3, 4], [5, 6]⟩
      [.revealSent [(0, 2)], .reveal .received [(1, 5)], .revealSent [(3, 4)], .revealRecvAll,
       .serverIdentity]).build
    c.reveal = some (RangeSet.ofRanges [(0, 2), (3, 4)], RangeSet.ofRange 0 2) ∧
    c.serverIdentity = true := by decide

/-! ## C17 -/

/-- **C17** Building succeeds exactly when both totals are set and the online limit (32 by default)
does not exceed the receive limit; the result has the given values. -/
theorem C17_build_iff (b : MpcTlsConfigBuilder) (c : MpcTlsConfig) :
    b.build = .ok c ↔
      b.maxSentData = some c.maxSentData ∧ b.maxRecvData = some c.maxRecvData ∧
      c.maxRecvDataOnline = b.maxRecvDataOnline.getD 32 ∧ c.maxRecvDataOnline ≤ c.maxRecvData ∧
      c.maxSentRecords = b.maxSentRecords ∧ c.maxRecvRecordsOnline = b.maxRecvRecordsOnline ∧
      c.deferDecryption = b.deferDecryption.getD true ∧ c.network = b.network.getD .latency := by
  unfold MpcTlsConfigBuilder.build MpcTlsConfig.validate
  cases h1 : b.maxSentData <;> simp
  cases h2 : b.maxRecvData <;> simp
  by_cases h : b.maxRecvDataOnline.getD 32 > ‹Nat›
  · simp only [h, if_true]
    constructor
    · intro h; cases h
    · rintro ⟨rfl, rfl, h3, h4, _⟩; omega
  · simp only [h, if_false]
    constructor
    · rintro h; cases h; simp; omega
    · cases c
      rintro ⟨rfl, rfl, rfl, h4, rfl, rfl, rfl, rfl⟩; rfl

/-- **C17** Whatever arrives over the wire, a configuration that deserializes has its online limit
within its total, and deserializing a valid configuration gives it back. -/
theorem C17_deserialize_iff (wire c : MpcTlsConfig) :
    wire.deserialize = .ok c ↔ c = wire ∧ c.maxRecvDataOnline ≤ c.maxRecvData := by
  unfold MpcTlsConfig.deserialize MpcTlsConfig.validate
  by_cases h : wire.maxRecvDataOnline > wire.maxRecvData
  · simp only [h, if_true]
    constructor
    · intro h; cases h
    · rintro ⟨rfl, h'⟩; omega
  · simp only [h, if_false]
    constructor
    · intro h; cases h; exact ⟨rfl, by omega⟩
    · rintro ⟨rfl, -⟩; rfl

/-- **C17** A valid configuration never makes the derivation of the protocol configuration panic. -/
theorem C17_derive_no_panic (wire c : MpcTlsConfig) (h : wire.deserialize = .ok c) :
    ∃ p, c.toProto = some p := by
  obtain ⟨rfl, h'⟩ := (C17_deserialize_iff wire c).1 h
  unfold MpcTlsConfig.toProto protoBuild
  simp [h']

theorem usizeAdd_eq {a b : Nat} (h : a + b < 2 ^ 64) : usizeAdd a b = a + b :=
  Nat.mod_eq_of_lt h

theorem default_records (n : Nat) (hn : n < 2 ^ 64) :
    10 ≤ usizeAdd 2 (defaultRecordCount n) ∧
      n ≤ 4096 * (usizeAdd 2 (defaultRecordCount n) - 2) := by
  obtain ⟨q, hq⟩ : ∃ q, q = (n - 4096 + 4095) / 4096 := ⟨_, rfl⟩
  have h1 : q < 2 ^ 53 := by omega
  have h2 : defaultRecordCount n = 8 + q := by
    unfold defaultRecordCount
    rw [← hq]
    exact usizeAdd_eq (by omega)
  have h3 : usizeAdd 2 (defaultRecordCount n) = 2 + (8 + q) := by
    rw [h2]; exact usizeAdd_eq (by omega)
  rw [h3]; omega

/-- **C17** (part) For limits that leave room for 32 bytes in a machine word, the derived protocol
configuration adds exactly the 32 protocol bytes to each byte limit, keeps the online limit within the
total, and, when no record count was given, reserves two protocol records on top of at least eight.

Missing for the full statement: explicit record counts (`C17_explicit_records_not_reserved`) and
limits near the word size (`C17_limit_wraps`), where the property fails. -/
theorem C17_derive_partial (c : MpcTlsConfig) (p : ProtoConfig) (h : c.toProto = some p)
    (hs : c.maxSentData + 32 < 2 ^ 64) (hr : c.maxRecvData + 32 < 2 ^ 64) :
    p.maxSent = c.maxSentData + 32 ∧ p.maxRecv = c.maxRecvData + 32 ∧
    p.maxRecvOnline = c.maxRecvDataOnline + 32 ∧ p.maxRecvOnline ≤ p.maxRecv ∧
    (c.maxSentRecords = none → 10 ≤ p.maxSentRecords ∧
      c.maxSentData ≤ 4096 * (p.maxSentRecords - 2)) ∧
    (c.maxRecvRecordsOnline = none → 10 ≤ p.maxRecvRecordsOnline ∧
      c.maxRecvDataOnline ≤ 4096 * (p.maxRecvRecordsOnline - 2)) := by
  unfold MpcTlsConfig.toProto protoBuild at h
  simp only at h
  split at h
  · cases h
  · rename_i hle
    have hp := Option.some.inj h
    have f1 : p.maxSent = usizeAdd 32 c.maxSentData := by rw [← hp]
    have f2 : p.maxRecvOnline = usizeAdd c.maxRecvDataOnline 32 := by rw [← hp]
    have f3 : p.maxRecv = usizeAdd c.maxRecvData 32 := by rw [← hp]
    have f4 : p.maxSentRecords = c.maxSentRecords.getD
        (usizeAdd 2 (defaultRecordCount (usizeAdd 32 c.maxSentData))) := by rw [← hp]
    have f5 : p.maxRecvRecordsOnline = c.maxRecvRecordsOnline.getD
        (usizeAdd 2 (defaultRecordCount (usizeAdd c.maxRecvDataOnline 32))) := by rw [← hp]
    clear hp h
    rw [usizeAdd_eq (by omega)] at f1 f2 f3
    refine ⟨by omega, f3, f2, by omega, ?_, ?_⟩
    · intro hn
      rw [hn, Option.getD_none, usizeAdd_eq (a := 32) (by omega)] at f4
      have := default_records (32 + c.maxSentData) (by omega)
      rw [f4]
      omega
    · intro hn
      rw [hn, Option.getD_none, usizeAdd_eq (a := c.maxRecvDataOnline) (by omega)] at f5
      have := default_records (c.maxRecvDataOnline + 32) (by omega)
      rw [f5]
      omega

/-- **C17**, disagreement: a record limit given by the user, documented as a number of *application
data* records, is used as the total number of records, without room for the protocol's own two. -/
theorem C17_explicit_records_not_reserved (c : MpcTlsConfig) (p : ProtoConfig) (n : Nat)
    (h : c.toProto = some p) (hn : c.maxSentRecords = some n) : p.maxSentRecords = n := by
  unfold MpcTlsConfig.toProto protoBuild at h
  simp only at h
  split at h
  · cases h
  · cases h; simp [hn]

/-- **C17**, disagreement: a valid configuration with a receive limit near the word size gives a
protocol configuration whose total limit is *smaller* than both the requested one and its own online
limit, because adding the protocol bytes wraps around. -/
theorem C17_limit_wraps :
    ∃ wire c p, MpcTlsConfig.deserialize wire = .ok c ∧ c.maxRecvData < 2 ^ 64 ∧
      c.toProto = some p ∧ p.maxRecv < c.maxRecvData ∧ p.maxRecv < p.maxRecvOnline :=
  ⟨⟨100, none, 100, 2 ^ 64 - 1, none, true, .latency⟩, _, _, rfl, by decide, rfl, by decide, by decide⟩

/-- The hypotheses of `C17_derive_partial` are met by an ordinary configuration. -/
example : ∃ c p, MpcTlsConfigBuilder.build
    { maxSentData := some 4096, maxRecvData := some 16384 } = .ok c ∧ c.toProto = some p ∧
    p.maxSentRecords = 11 ∧ p.maxRecvOnline = 64 := ⟨_, _, rfl, rfl, by decide, by decide⟩

end Tlsn
