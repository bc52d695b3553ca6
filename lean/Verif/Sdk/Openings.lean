import Verif.Sdk.Reveal
import Verif.Auth.ProveProps
import Mathlib.Data.List.Forall2
import Mathlib.Data.List.Dedup

/-! # C73: the openings returned by `SdkProver::reveal` -/

namespace Tlsn.Sdk

/-- The opening opens the commitment to a range with an algorithm: its hash is that of the range's bytes followed by its
blinder. -/
def Opens (provider : HashProvider) (t : Transcript) (d : Direction) (idx : RangeSet) (alg : HashAlgId) (o : Opening) : Prop :=
  ∃ h msg, provider alg = some h ∧ BytesAt (t.data d) idx msg ∧ o.hash = h.hash (msg ++ o.blinder)

/-- The prover's output belongs to the requested commitments: secrets in the order of the request, and the commitments
are those of the secrets. -/
def HonestOutput (provider : HashProvider) (t : Transcript) (hashes : List (Direction × RangeSet × HashAlgId))
    (out : ProverOutput) : Prop :=
  out.secrets.map (fun s => (s.direction, s.idx, s.alg)) = hashes ∧
  Pairwise2 (HonestCommitment provider t) out.secrets out.commitments

theorem pairwise2_forall {α β : Type} {P : α → β → Prop} {l : List α} {m : List β} (h : Pairwise2 P l m) :
    List.Forall₂ P l m := by
  rw [List.forall₂_iff_get]
  refine ⟨h.1, fun i h1 h2 => h.2 i _ _ ?_ ?_⟩
  · simp [List.getElem?_eq_getElem h1]
  · simp [List.getElem?_eq_getElem h2]

/-- The prover's output in a session is honest in this sense. -/
theorem honestOutput_of_session (aes : AesFn) (hc : HashCircuits) (e : Bool) (certs : CertVerifier)
    (blinders : Nat → Blinder) (vp : ZkVm) (keys : KeyRefs) (k : KeyBytes) (tls : SessionView) (config : ProveConfig)
    (hkp : HoldsKeys vp keys k) (hw : WellFormed tls)
    (hrev : ∀ r, config.reveal = some r → (∀ x ∈ r.1, x < (sessionData aes k tls).sent.length) ∧
      ∀ x ∈ r.2, x < (sessionData aes k tls).received.length)
    (hcom : ∀ q ∈ config.toRequest.hashes, (hc q.2.2).isSome ∧
      ∀ x ∈ q.2.1, x < ((sessionData aes k tls).data q.1).length)
    (provider : HashProvider)
    (hprov : ∀ a f, hc a = some f → ∃ h, provider a = some h ∧ h.id = a ∧ ∀ m, h.hash m = (f m).toList)
    (vp' : ZkVm) (pout : ProverOutput)
    (hok : proveSession aes hc e blinders vp keys (sessionData aes k tls) tls config = .ok (vp', pout)) :
    HonestOutput provider (sessionData aes k tls) config.toRequest.hashes pout := by
  obtain ⟨_, h2, h3⟩ := C63_secrets_open aes hc e certs blinders vp keys k tls config hkp hw hrev hcom provider hprov vp'
    pout hok
  refine ⟨?_, h3⟩
  rw [h2]
  apply List.ext_getElem?
  intro n
  simp [List.getElem?_mapIdx]
  cases config.toRequest.hashes[n]? <;> rfl

variable {provider : HashProvider} {t : Transcript}

/-- The loop on honest pairs. -/
theorem collect_ok {cs : List PlaintextHash} {ss : List PlaintextHashSecret}
    (h : List.Forall₂ (HonestCommitment provider t) ss cs) (out : RevealOutput) :
    ∃ (out' : RevealOutput) (add : Direction → List Opening), collectOpenings out (cs.zip ss) = .ok out' ∧ (∀ d, out'.of d = out.of d ++ add d) ∧
      ∀ d, List.Forall₂ (fun q o => Opens provider t d q.2.1 q.2.2 o)
        ((ss.map fun s => (s.direction, s.idx, s.alg)).filter (fun q => q.1 = d)) (add d) := by
  induction h generalizing out with
  | nil => exact ⟨out, fun _ => [], rfl, by simp, fun d => .nil⟩
  | @cons s c ss cs h1 h2 ih =>
    obtain ⟨hh, msg, h3, h4, rfl⟩ := h1
    let o : Opening := ⟨hh.hash (msg ++ s.blinder.toList), s.blinder.toList⟩
    have hop : Opens provider t s.direction s.idx s.alg o := ⟨hh, msg, h3, h4, rfl⟩
    cases hd : s.direction with
    | sent =>
      obtain ⟨out', add, h5, h6, h7⟩ := ih { out with sent := out.sent ++ [o] }
      refine ⟨out', fun d => (match d with | .sent => [o] | .received => []) ++ add d, ?_, ?_, ?_⟩
      · rw [List.zip_cons_cons, collectOpenings, if_neg (by simp [hd])]
        simp only
        exact h5
      · intro d
        rw [h6]
        cases d <;> simp [RevealOutput.of]
      · intro d
        cases d
        · simp only [List.map_cons, hd, decide_true, List.filter_cons_of_pos]
          exact .cons (hd ▸ hop) (h7 .sent)
        · simpa [hd] using h7 .received
    | received =>
      obtain ⟨out', add, h5, h6, h7⟩ := ih { out with recv := out.recv ++ [o] }
      refine ⟨out', fun d => (match d with | .sent => [] | .received => [o]) ++ add d, ?_, ?_, ?_⟩
      · rw [List.zip_cons_cons, collectOpenings, if_neg (by simp [hd])]
        simp only
        exact h5
      · intro d
        rw [h6]
        cases d <;> simp [RevealOutput.of]
      · intro d
        cases d
        · simpa [hd] using h7 .sent
        · simp only [List.map_cons, hd, decide_true, List.filter_cons_of_pos]
          exact .cons (hd ▸ hop) (h7 .received)

/-- The pairs of commitment and secret belong together. -/
def Matching (c : PlaintextHash) (s : PlaintextHashSecret) : Prop := c.direction = s.direction ∧ c.idx = s.idx

/-- The openings of a direction, from pairs of commitments and secrets: the hash and the blinder, in their order. -/
def openingsOf (d : Direction) (ps : List (PlaintextHash × PlaintextHashSecret)) : List Opening :=
  (ps.filter fun p => p.1.direction = d).map fun p => ⟨p.1.hash.value, p.2.blinder.toList⟩

theorem collect_iff (ps : List (PlaintextHash × PlaintextHashSecret)) (out o : RevealOutput) :
    collectOpenings out ps = .ok o ↔ (∀ p ∈ ps, Matching p.1 p.2) ∧
      o = ⟨out.sent ++ openingsOf .sent ps, out.recv ++ openingsOf .received ps⟩ := by
  induction ps generalizing out with
  | nil => simp [collectOpenings, openingsOf, eq_comm]
  | cons p ps ih =>
    obtain ⟨c, s⟩ := p
    rw [collectOpenings]
    by_cases hm : c.direction ≠ s.direction ∨ c.idx ≠ s.idx
    · rw [if_pos hm]
      constructor
      · intro h; cases h
      · rintro ⟨h, -⟩
        obtain ⟨h1, h2⟩ := h (c, s) List.mem_cons_self
        exact (hm.elim (· h1) (· h2)).elim
    · rw [if_neg hm]
      have hm' : Matching c s := by
        simp only [not_or, ne_eq, Decidable.not_not] at hm
        exact hm
      simp only [List.forall_mem_cons]
      cases hd : c.direction with
      | sent =>
        simp only
        rw [ih]
        simp [openingsOf, hd, hm', List.append_assoc]
      | received =>
        simp only
        rw [ih]
        simp [openingsOf, hd, hm', List.append_assoc]

/-- **C73** When openings are returned: exactly if the prover's output has as many secrets as commitments and they belong
together one by one; they are then the hash and the blinder of each, by direction, in this order. -/
theorem C73_output_iff (out : ProverOutput) (o : RevealOutput) :
    buildRevealOutput out = .ok o ↔ out.commitments.length = out.secrets.length ∧
      (∀ p ∈ out.commitments.zip out.secrets, Matching p.1 p.2) ∧
      ∀ d, o.of d = openingsOf d (out.commitments.zip out.secrets) := by
  unfold buildRevealOutput
  by_cases hl : out.commitments.length = out.secrets.length
  · rw [if_neg (by simpa using hl), collect_iff]
    constructor
    · rintro ⟨h1, rfl⟩
      exact ⟨hl, h1, fun d => by cases d <;> simp [RevealOutput.of]⟩
    · rintro ⟨-, h1, h2⟩
      have h3 := h2 .sent
      have h4 := h2 .received
      refine ⟨h1, ?_⟩
      obtain ⟨a, b⟩ := o
      simp only [RevealOutput.of] at h3 h4
      simp [h3, h4]
  · rw [if_pos hl]
    constructor
    · intro h; cases h
    · rintro ⟨h, -⟩; exact (hl h).elim

/-- **C73** The openings follow the requested commitments of each direction, one for one. -/
theorem C73_follows_request (provider : HashProvider) (t : Transcript)
    (hashes : List (Direction × RangeSet × HashAlgId)) (out : ProverOutput) (h : HonestOutput provider t hashes out) :
    ∃ ro, buildRevealOutput out = .ok ro ∧
      ∀ d, List.Forall₂ (fun q o => Opens provider t d q.2.1 q.2.2 o) (hashes.filter fun q => q.1 = d) (ro.of d) := by
  obtain ⟨h1, h2⟩ := h
  obtain ⟨out', add, h3, h4, h5⟩ := collect_ok (pairwise2_forall h2) {}
  refine ⟨out', ?_, fun d => ?_⟩
  · unfold buildRevealOutput
    rw [if_neg (by simp [h2.1])]
    exact h3
  · rw [h4, ← h1]
    have : RevealOutput.of {} d = [] := by cases d <;> rfl
    rw [this, List.nil_append]
    exact h5 d

/-- The request's entries of a direction are the distinct (range, algorithm) pairs of the commit list. -/
theorem request_entries {order : List CommitEntry → List CommitEntry} (ho : ∀ l, (order l).Perm l)
    {reveal : Reveal} {commit : Option Commit} {cfg : ProveConfig} (h : revealConfig t order reveal commit = .ok cfg)
    (d : Direction) :
    (cfg.toRequest.hashes.filter fun q => q.1 = d).Nodup ∧
    ∀ q, q ∈ (cfg.toRequest.hashes.filter fun q => q.1 = d) ↔
      ∃ c ∈ commitArg commit d, q = (d, c.idx, c.algorithm.id) := by
  obtain ⟨_, _, h3, h4⟩ := revealConfig_ok ho h
  cases hcc : cfg.transcriptCommit with
  | none =>
    have hn := h3.1 hcc
    have e : cfg.toRequest.hashes = [] := by simp [ProveRequest.hashes, ProveConfig.toRequest, hcc]
    rw [e]
    refine ⟨List.nodup_nil, fun q => ?_⟩
    rw [hn]
    cases d <;> simp [commitArg]
  | some cc =>
    obtain ⟨h5, h6⟩ := h4 cc hcc
    have e : cfg.toRequest.hashes = cc.commits.map fun e => (e.1.1, e.1.2, e.2) := by
      simp [ProveRequest.hashes, ProveConfig.toRequest, hcc, CommitConfig.toRequest]
    rw [e]
    constructor
    · apply List.Nodup.filter
      exact h5.map (by rintro ⟨⟨a, b⟩, c⟩ ⟨⟨a', b'⟩, c'⟩ h; simpa [and_assoc] using h)
    · rintro ⟨d', idx, k⟩
      simp only [List.mem_filter, List.mem_map, Prod.mk.injEq, decide_eq_true_eq]
      constructor
      · rintro ⟨⟨⟨⟨a, b⟩, c⟩, h7, rfl, rfl, rfl⟩, rfl⟩
        obtain ⟨c, h8, h9, h10⟩ := (h6 _ _ _).1 h7
        exact ⟨c, h8, rfl, h9, h10⟩
      · rintro ⟨c, h8, rfl, h9, h10⟩
        exact ⟨⟨_, (h6 d' idx k).2 ⟨c, h8, h9, h10⟩, rfl, rfl, rfl⟩, rfl⟩

theorem forall₂_mem_left {α β : Type} {P : α → β → Prop} {l : List α} {m : List β} (h : List.Forall₂ P l m) {x : α}
    (hx : x ∈ l) : ∃ y ∈ m, P x y := by
  induction h with
  | nil => cases hx
  | cons h1 _ ih =>
    rcases List.mem_cons.1 hx with rfl | hx
    · exact ⟨_, by simp, h1⟩
    · obtain ⟨y, h2, h3⟩ := ih hx
      exact ⟨y, List.mem_cons_of_mem _ h2, h3⟩

theorem forall₂_mem_right {α β : Type} {P : α → β → Prop} {l : List α} {m : List β} (h : List.Forall₂ P l m) {y : β}
    (hy : y ∈ m) : ∃ x ∈ l, P x y := by
  induction h with
  | nil => cases hy
  | cons h1 _ ih =>
    rcases List.mem_cons.1 hy with rfl | hy
    · exact ⟨_, by simp, h1⟩
    · obtain ⟨y, h2, h3⟩ := ih hy
      exact ⟨y, List.mem_cons_of_mem _ h2, h3⟩

/-- **C73** (partial: the documentation promises that `sent[i]` opens `commit.sent[i]`, which fails, see
`C73_order_lost`.)  As sets the openings are right: each range given to `reveal` is opened by some opening of its
direction, each opening opens one of the ranges, and there are as many openings as different (range, algorithm) pairs. -/
theorem C73_openings_partial (provider : HashProvider) (t : Transcript) (order : List CommitEntry → List CommitEntry)
    (ho : ∀ l, (order l).Perm l) (reveal : Reveal) (commit : Option Commit) (cfg : ProveConfig)
    (hcfg : revealConfig t order reveal commit = .ok cfg) (out : ProverOutput)
    (hout : HonestOutput provider t cfg.toRequest.hashes out) :
    ∃ ro, buildRevealOutput out = .ok ro ∧ ∀ d,
      (∀ c ∈ commitArg commit d, ∃ o ∈ ro.of d, Opens provider t d c.idx c.algorithm.id o) ∧
      (∀ o ∈ ro.of d, ∃ c ∈ commitArg commit d, Opens provider t d c.idx c.algorithm.id o) ∧
      (ro.of d).length = ((commitArg commit d).map fun c => (c.idx, c.algorithm)).dedup.length := by
  obtain ⟨ro, h1, h2⟩ := C73_follows_request provider t _ out hout
  refine ⟨ro, h1, fun d => ?_⟩
  obtain ⟨h3, h4⟩ := request_entries ho hcfg d
  refine ⟨fun c hc => ?_, fun o ho => ?_, ?_⟩
  · obtain ⟨o, h5, h6⟩ := forall₂_mem_left (h2 d) ((h4 _).2 ⟨c, hc, rfl⟩)
    exact ⟨o, h5, h6⟩
  · obtain ⟨q, h5, h6⟩ := forall₂_mem_right (h2 d) ho
    obtain ⟨c, hc, rfl⟩ := (h4 q).1 h5
    exact ⟨c, hc, h6⟩
  · rw [← (h2 d).length_eq]
    have hinj : Function.Injective fun p : RangeSet × HashAlgorithm => (d, p.1, p.2.id) := by
      rintro ⟨a, x⟩ ⟨b, y⟩ h
      simp only [Prod.mk.injEq, true_and] at h
      have hxy : ∀ x y : HashAlgorithm, x.id = y.id → x = y := by
        intro x y; cases x <;> cases y <;> decide
      exact Prod.ext h.1 (hxy x y h.2)
    have hp : (cfg.toRequest.hashes.filter fun q => q.1 = d).Perm
        ((((commitArg commit d).map fun c => (c.idx, c.algorithm)).dedup).map fun p => (d, p.1, p.2.id)) := by
      rw [List.perm_ext_iff_of_nodup h3 ((List.nodup_dedup _).map hinj)]
      intro q
      rw [h4]
      simp only [List.mem_map, List.mem_dedup]
      constructor
      · rintro ⟨c, hc, rfl⟩; exact ⟨(c.idx, c.algorithm), ⟨c, hc, rfl⟩, rfl⟩
      · rintro ⟨_, ⟨c, hc, rfl⟩, rfl⟩; exact ⟨c, hc, rfl⟩
    rw [hp.length_eq, List.length_map]

/-- **C73** With a single range in a direction the promise holds. -/
theorem C73_single_range (provider : HashProvider) (t : Transcript) (order : List CommitEntry → List CommitEntry)
    (ho : ∀ l, (order l).Perm l) (reveal : Reveal) (commit : Option Commit) (cfg : ProveConfig)
    (hcfg : revealConfig t order reveal commit = .ok cfg) (out : ProverOutput)
    (hout : HonestOutput provider t cfg.toRequest.hashes out) (d : Direction) (c : CommitRange)
    (hc : commitArg commit d = [c]) :
    ∃ ro o, buildRevealOutput out = .ok ro ∧ ro.of d = [o] ∧ Opens provider t d c.idx c.algorithm.id o := by
  obtain ⟨ro, h1, h2⟩ := C73_openings_partial provider t order ho reveal commit cfg hcfg out hout
  obtain ⟨h3, _, h5⟩ := h2 d
  rw [hc] at h3 h5
  obtain ⟨o, h6, h7⟩ := h3 c (by simp)
  obtain ⟨o', he⟩ := List.length_eq_one_iff.1 (h5.trans rfl)
  rw [he] at h6
  simp only [List.mem_cons, List.not_mem_nil, or_false] at h6
  subst h6
  exact ⟨ro, o, h1, he, h7⟩

/-! ## Concrete cases, and the documented order -/

/-- A hash for the counterexample: the message itself. -/
def copyHash (id : HashAlgId) : HashAlg := ⟨id, fun m => m⟩

/-- What the documentation of `RevealOutput` promises. -/
def InInputOrder (provider : HashProvider) (t : Transcript) (commit : Option Commit) (ro : RevealOutput) : Prop :=
  ∀ d, List.Forall₂ (fun c o => Opens provider t d c.idx c.algorithm.id o) (commitArg commit d) (ro.of d)

/-- A transcript of two sent bytes. -/
def openTranscript : Transcript := ⟨[1, 2], []⟩

/-- Commitments to its first and to its second byte. -/
def openCommit : Commit := ⟨[⟨0, 1, .sha256⟩, ⟨1, 2, .sha256⟩], []⟩

/-- The honest output when the hash set lists the second range first. -/
def openOutput : ProverOutput where
  commitments := [⟨.sent, RangeSet.ofRanges [(1, 2)], ⟨.sha256, 2 :: List.replicate 16 7⟩⟩,
    ⟨.sent, RangeSet.ofRanges [(0, 1)], ⟨.sha256, 1 :: List.replicate 16 8⟩⟩]
  secrets := [⟨.sent, RangeSet.ofRanges [(1, 2)], .sha256, Vector.replicate 16 7⟩,
    ⟨.sent, RangeSet.ofRanges [(0, 1)], .sha256, Vector.replicate 16 8⟩]

/-- The output for the first byte alone. -/
def openOutput1 : ProverOutput where
  commitments := [⟨.sent, RangeSet.ofRanges [(0, 1)], ⟨.sha256, 1 :: List.replicate 16 8⟩⟩]
  secrets := [⟨.sent, RangeSet.ofRanges [(0, 1)], .sha256, Vector.replicate 16 8⟩]

theorem openOutput1_honest : HonestOutput (fun id => some (copyHash id)) openTranscript
    [(.sent, RangeSet.ofRanges [(0, 1)], .sha256)] openOutput1 := by
  refine ⟨by decide +kernel, by decide +kernel, ?_⟩
  intro i a b ha hb
  rcases i with _ | i
  · cases ha; cases hb
    exact ⟨copyHash .sha256, [1], rfl, by unfold BytesAt; decide +kernel, by decide +kernel⟩
  · simp [openOutput1] at ha

theorem openOutput_honest : HonestOutput (fun id => some (copyHash id)) openTranscript
    [(.sent, RangeSet.ofRanges [(1, 2)], .sha256), (.sent, RangeSet.ofRanges [(0, 1)], .sha256)] openOutput := by
  refine ⟨by decide +kernel, by decide +kernel, ?_⟩
  intro i a b ha hb
  rcases i with _ | _ | i
  · cases ha; cases hb
    exact ⟨copyHash .sha256, [2], rfl, by unfold BytesAt; decide +kernel, by decide +kernel⟩
  · cases ha; cases hb
    exact ⟨copyHash .sha256, [1], rfl, by unfold BytesAt; decide +kernel, by decide +kernel⟩
  · simp [openOutput] at ha

/-- **C73** The order of the openings is not that of the commit list: the hash set may list the commitments in the
opposite order, and then `sent[0]` opens `commit.sent[1]`.  (Disagreement with the documentation.) -/
theorem C73_order_lost : ∃ (t : Transcript) (order : List CommitEntry → List CommitEntry) (reveal : Reveal)
    (commit : Commit) (cfg : ProveConfig) (out : ProverOutput) (ro : RevealOutput),
    (∀ l, (order l).Perm l) ∧ revealConfig t order reveal (some commit) = .ok cfg ∧
    HonestOutput (fun id => some (copyHash id)) t cfg.toRequest.hashes out ∧ buildRevealOutput out = .ok ro ∧
    ro.sent.length = commit.sent.length ∧ ro.recv.length = commit.recv.length ∧
    ¬ InInputOrder (fun id => some (copyHash id)) t (some commit) ro := by
  refine ⟨openTranscript, id, ⟨[], [], true⟩, openCommit, _, openOutput, _, fun l => .refl _, rfl, openOutput_honest, rfl,
    rfl, rfl, fun h => ?_⟩
  cases h .sent with
  | cons h1 _ =>
    obtain ⟨hh, msg, h2, h3, h4⟩ := h1
    cases h2
    have hm : msg = [1] := by
      have h5 : msg.map some = [1].map some := h3.trans (by decide +kernel)
      exact List.map_injective_iff.2 (fun _ _ h => Option.some.inj h) h5
    subst hm
    revert h4
    decide +kernel

/-- **C73** A range given twice is opened once: the openings are fewer than the ranges. -/
theorem C73_duplicate_dropped : ∃ (t : Transcript) (reveal : Reveal) (commit : Commit) (cfg : ProveConfig)
    (out : ProverOutput) (ro : RevealOutput),
    revealConfig t id reveal (some commit) = .ok cfg ∧
    HonestOutput (fun id => some (copyHash id)) t cfg.toRequest.hashes out ∧ buildRevealOutput out = .ok ro ∧
    commit.sent.length = 2 ∧ ro.sent.length = 1 :=
  ⟨openTranscript, ⟨[], [], true⟩, ⟨[⟨0, 1, .sha256⟩, ⟨0, 1, .sha256⟩], []⟩, _, openOutput1, _, rfl, openOutput1_honest,
    rfl, rfl, rfl⟩

/-- The hypotheses of `C73_single_range` are met by a request for one range. -/
example : ∃ cfg, revealConfig openTranscript id ⟨[], [], true⟩ (some ⟨[⟨0, 1, .sha256⟩], []⟩) = .ok cfg ∧
    HonestOutput (fun id => some (copyHash id)) openTranscript cfg.toRequest.hashes openOutput1 ∧
    commitArg (some ⟨[⟨0, 1, .sha256⟩], []⟩) .sent = [⟨0, 1, .sha256⟩] :=
  ⟨_, rfl, openOutput1_honest, rfl⟩

/-- Those of `C73_openings_partial` by a request for two. -/
example : ∃ cfg, revealConfig openTranscript id ⟨[], [], true⟩ (some openCommit) = .ok cfg ∧
    HonestOutput (fun id => some (copyHash id)) openTranscript cfg.toRequest.hashes openOutput :=
  ⟨_, rfl, openOutput_honest⟩

end Tlsn.Sdk
