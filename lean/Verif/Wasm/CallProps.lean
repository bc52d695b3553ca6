import Verif.Wasm.BindingProps

/-! # C115: the calls of JavaScript -/

namespace Tlsn.Wasm

open Tlsn.Sdk (PState PCall PReply Ext SdkProverConfig)

/-! ## Specification -/

/-- The algorithm by its name. -/
def JsHash.named : JsHash → Sdk.HashAlgorithm
  | .blake3 => .blake3
  | .sha256 => .sha256
  | .keccak256 => .keccak256

/-- The call of the SDK that a call of JavaScript stands for; none if it gives a channel to the server in proxy mode or none in
MPC mode. -/
def JsCall.meant (mode : Sdk.Mode) : JsCall → Option PCall
  | .setProgressCallback => none
  | .setup e => some (.setup e)
  | .sendRequest true e => if mode = .mpc then some (.sendMpc e) else none
  | .sendRequest false e => if mode = .proxy then some (.sendProxy e) else none
  | .transcript => some .transcript
  | .reveal r c order e => some (.reveal ⟨r.sent, r.recv, r.serverIdentity⟩
      (c.map fun c => ⟨c.sent.map fun x => ⟨x.start, x.stop, x.algorithm.named⟩,
        c.recv.map fun x => ⟨x.start, x.stop, x.algorithm.named⟩⟩) order e)

/-- The answer of the SDK, if it was asked. -/
def JsReply.ofSdk : JsReply → Option PReply
  | .sdk r => some r
  | _ => none

/-- The call returned a value, not an exception. -/
def JsReply.succeeded : JsReply → Prop
  | .sdk r => r.succeeded
  | .refused => False
  | .set => True

/-- The event that tells that a call is complete. -/
def Progress.isDone : Progress → Bool
  | .setupDone | .requestComplete | .finalized => true
  | _ => false

/-- What the callback is told by a call that is started, and when it is complete. -/
def JsCall.announced : JsCall → List Progress × List Progress
  | .setup _ => ([.setupStarted], [.setupDone])
  | .sendRequest _ _ => ([.connecting, .sending], [.requestComplete])
  | .reveal _ _ _ _ => ([.revealing], [.finalized])
  | _ => ([], [])

/-! ## Proofs -/

theorem convertReveal_eq (r : JsReveal) : convertReveal r = ⟨r.sent, r.recv, r.serverIdentity⟩ := by
  have h1 : ∀ (l : List Rng) (c : Sdk.Reveal),
      l.foldl (fun c x => { c with sent := c.sent ++ [x] }) c = { c with sent := c.sent ++ l } := by
    intro l
    induction l with
    | nil => intro c; simp
    | cons a as ih => intro c; rw [List.foldl_cons, ih]; simp
  have h2 : ∀ (l : List Rng) (c : Sdk.Reveal),
      l.foldl (fun c x => { c with recv := c.recv ++ [x] }) c = { c with recv := c.recv ++ l } := by
    intro l
    induction l with
    | nil => intro c; simp
    | cons a as ih => intro c; rw [List.foldl_cons, ih]; simp
  unfold convertReveal
  simp only [h1, h2, List.nil_append]

theorem convertHash_eq (h : JsHash) : convertHash h = h.named := by cases h <;> rfl

theorem convertCommit_eq (c : JsCommit) : convertCommit c = ⟨c.sent.map fun x => ⟨x.start, x.stop, x.algorithm.named⟩,
    c.recv.map fun x => ⟨x.start, x.stop, x.algorithm.named⟩⟩ := by
  unfold convertCommit
  have : convertCommitRange = fun x => ⟨x.start, x.stop, x.algorithm.named⟩ := by
    funext x
    rw [convertCommitRange, convertHash_eq]
  rw [this]

theorem isOk_iff (r : PReply) : isOk r = true ↔ r.succeeded := by cases r <;> simp [isOk, Sdk.PReply.succeeded]

/-- A call that stands for one of the SDK. -/
theorem call_meant (c : SdkProverConfig) (p : JsProver) (call : JsCall) (k : PCall) (h : call.meant c.mode = some k) :
    (p.call c call).1 = ⟨(Sdk.proverCall c p.inner k).1, p.callback⟩ ∧
      (p.call c call).2.2 = .sdk (Sdk.proverCall c p.inner k).2 := by
  cases call with
  | setProgressCallback => cases h
  | setup e => cases h; exact ⟨rfl, rfl⟩
  | transcript => cases h; exact ⟨rfl, rfl⟩
  | reveal r commit order e =>
    simp only [JsCall.meant, Option.some.injEq] at h
    subst h
    simp only [JsProver.call]
    rw [convertReveal_eq, show commit.map convertCommit = commit.map fun c => ⟨c.sent.map fun x => ⟨x.start, x.stop, x.algorithm.named⟩,
      c.recv.map fun x => ⟨x.start, x.stop, x.algorithm.named⟩⟩ from congrArg (fun f => commit.map f) (funext convertCommit_eq)]
    exact ⟨rfl, rfl⟩
  | sendRequest io e =>
    cases io <;> cases hm : c.mode <;> simp only [JsCall.meant, hm, if_true, if_false, reduceCtorEq] at h
    · cases h; simp [JsProver.call, hm, JsReply.ofSdk]
    · cases h; simp [JsProver.call, hm, JsReply.ofSdk]

/-- One that does not. -/
theorem call_not_meant (c : SdkProverConfig) (p : JsProver) (call : JsCall) (h : call.meant c.mode = none) :
    (p.call c call).1.inner = p.inner ∧ (p.call c call).2.2.ofSdk = none := by
  cases call with
  | setProgressCallback => exact ⟨rfl, rfl⟩
  | setup e => cases h
  | transcript => cases h
  | reveal r commit order e => cases h
  | sendRequest io e =>
    cases io <;> cases hm : c.mode <;> simp only [JsCall.meant, hm, if_true, if_false, reduceCtorEq] at h
    · simp [JsProver.call, hm, JsReply.ofSdk]
    · simp [JsProver.call, hm, JsReply.ofSdk]

/-- What the callback is told by a call. -/
theorem call_events (c : SdkProverConfig) (p : JsProver) (call : JsCall) :
    ((p.call c call).2.2.succeeded → (p.call c call).2.1 = if p.callback then call.announced.1 ++ call.announced.2 else []) ∧
    (¬ (p.call c call).2.2.succeeded → (p.call c call).2.1 = if p.callback then call.announced.1 else []) := by
  cases call with
  | setProgressCallback => constructor <;> intro _ <;> cases p.callback <;> rfl
  | transcript => constructor <;> intro _ <;> cases p.callback <;> rfl
  | setup e =>
    simp only [JsProver.call, JsReply.succeeded, ← isOk_iff, JsProver.emit, JsCall.announced]
    constructor <;> intro h <;> simp only [h] <;> cases p.callback <;> simp
  | reveal r commit order e =>
    simp only [JsProver.call, JsReply.succeeded, ← isOk_iff, JsProver.emit, JsCall.announced]
    constructor <;> intro h <;> simp only [h] <;> cases p.callback <;> simp
  | sendRequest io e =>
    cases io <;> cases hm : c.mode <;>
      simp only [JsProver.call, hm, JsReply.succeeded, ← isOk_iff, JsProver.emit, JsCall.announced] <;>
      constructor <;> intro h <;> first | exact h.elim | (simp only [h]; cases p.callback <;> simp) | (cases p.callback <;> simp)

/-- **C115**: the state of the session and the answers are those of the SDK for the calls that JavaScript meant, in the
same order, with the ranges, algorithms and flags that it gave.  So all that C76 says of the SDK's prover holds here. -/
theorem C115_calls (c : SdkProverConfig) (calls : List JsCall) :
    (runJs c calls).1.inner = (Sdk.runProver c (calls.filterMap (JsCall.meant c.mode))).1 ∧
      (runJs c calls).2.filterMap (·.2.2.ofSdk) = (Sdk.runProver c (calls.filterMap (JsCall.meant c.mode))).2.map (·.2) := by
  induction calls using List.reverseRecOn with
  | nil => exact ⟨rfl, rfl⟩
  | append_singleton calls call ih =>
    unfold runJs Sdk.runProver at ih ⊢
    rw [Sdk.runCalls_snoc, List.filterMap_append]
    cases hk : call.meant c.mode with
    | none =>
      obtain ⟨h1, h2⟩ := call_not_meant c (Sdk.runCalls (JsProver.call c) ⟨.initialized, false⟩ calls).1 call hk
      have : [call].filterMap (JsCall.meant c.mode) = [] := by simp [hk]
      rw [this, List.append_nil]
      refine ⟨h1.trans ih.1, ?_⟩
      rw [List.filterMap_append, ih.2]
      simp [h2]
    | some k =>
      obtain ⟨h1, h2⟩ := call_meant c (Sdk.runCalls (JsProver.call c) ⟨.initialized, false⟩ calls).1 call k hk
      have : [call].filterMap (JsCall.meant c.mode) = [k] := by simp [hk]
      rw [this, Sdk.runCalls_snoc]
      simp only
      rw [h1, List.filterMap_append, ih.2, List.map_append, ← ih.1]
      refine ⟨rfl, ?_⟩
      simp [h2, JsReply.ofSdk]

/-- **C115**: a request with a channel to the server in proxy mode, or without one in MPC mode, is refused; the session
stays as it was, at any time, so that the right call can follow.  No other request is refused. -/
theorem C115_refused (c : SdkProverConfig) (p : JsProver) (io : Bool) (e : Ext Transcript) :
    ((p.call c (.sendRequest io e)).2.2 = .refused ↔ (io = true ↔ c.mode = .proxy)) ∧
      ((io = true ↔ c.mode = .proxy) → (p.call c (.sendRequest io e)).1 = p) := by
  cases io <;> cases hm : c.mode <;> simp [JsProver.call, hm]

/-- **C115**: once `reveal` was called, with whatever result, no call of the protocol succeeds: data is shown at most
once. -/
theorem C115_once (c : SdkProverConfig) (calls : List JsCall) (n m : Nat) (hnm : n < m) (r : JsReveal) (commit : Option JsCommit)
    (order : List CommitEntry → List CommitEntry) (e : ProveConfig → Ext ProverOutput) (x : List Progress × JsReply)
    (h : (runJs c calls).2[n]? = some (.reveal r commit order e, x)) (call : JsCall) (hc : call ≠ .setProgressCallback)
    (ev : List Progress) (reply : JsReply) (h' : (runJs c calls).2[m]? = some (call, ev, reply)) : ¬ reply.succeeded := by
  unfold runJs at h h'
  have key := Sdk.runCalls_closed (Dead := fun p : JsProver => p.inner.Dead)
    (Bad := fun r : List Progress × JsReply => r.2 ≠ .set → ¬ r.2.succeeded) (step := JsProver.call c)
    (s0 := ⟨.initialized, false⟩) (fun p call hd => by
      cases hk : call.meant c.mode with
      | none =>
        obtain ⟨h1, h2⟩ := call_not_meant c p call hk
        refine ⟨by rw [h1]; exact hd, fun hs => ?_⟩
        cases hr : (p.call c call).2.2 with
        | sdk r => rw [hr] at h2; cases h2
        | refused => exact id
        | set => exact absurd hr hs
      | some k =>
        obtain ⟨h1, h2⟩ := call_meant c p call k hk
        obtain ⟨d1, d2⟩ := Sdk.dead_step c p.inner k hd
        refine ⟨by rw [h1]; exact d1, fun _ => ?_⟩
        rw [h2]
        exact d2) hnm
      (by
        rw [Sdk.runCalls_after h]
        have hm := call_meant c (Sdk.runCalls (JsProver.call c) ⟨.initialized, false⟩ (calls.take n)).1
          (.reveal r commit order e) _ rfl
        rw [hm.1]
        exact Sdk.reveal_dead c _ _ _ _ _) h'
  refine key ?_
  obtain ⟨-, -, hr⟩ := Sdk.runCalls_get h'
  intro hs
  simp only [Prod.ext_iff] at hr
  have h3 := hr.2
  simp only at hs
  rw [hs] at h3
  cases call with
  | setProgressCallback => exact hc rfl
  | setup e => cases h3
  | transcript => cases h3
  | reveal r commit order e => cases h3
  | sendRequest io e =>
    cases io <;> cases hm : c.mode <;> simp only [JsProver.call, hm] at h3 <;> cases h3

/-- **C115**: if JavaScript has set a callback before, it is told that a call starts, and that it is complete if and only if
it succeeded; without one nobody is told. -/
theorem C115_events (c : SdkProverConfig) (calls : List JsCall) (n : Nat) (call : JsCall) (ev : List Progress) (reply : JsReply)
    (h : (runJs c calls).2[n]? = some (call, ev, reply)) :
    (.setProgressCallback ∈ calls.take n → (reply.succeeded → ev = call.announced.1 ++ call.announced.2) ∧
      (¬ reply.succeeded → ev = call.announced.1)) ∧ (.setProgressCallback ∉ calls.take n → ev = []) := by
  unfold runJs at h
  obtain ⟨-, -, hr⟩ := Sdk.runCalls_get h
  have hcb : ∀ calls, (Sdk.runCalls (JsProver.call c) ⟨.initialized, false⟩ calls).1.callback = true ↔
      JsCall.setProgressCallback ∈ calls := by
    intro calls
    induction calls using List.reverseRecOn with
    | nil => simp [Sdk.runCalls]
    | append_singleton calls call ih =>
      rw [Sdk.runCalls_snoc]
      simp only [List.mem_append, List.mem_singleton]
      generalize (Sdk.runCalls (JsProver.call c) ⟨.initialized, false⟩ calls).1 = p at ih
      cases call with
      | setProgressCallback => simp [JsProver.call]
      | setup e => simpa [JsProver.call] using ih
      | transcript => simpa [JsProver.call] using ih
      | reveal r commit order e => simpa [JsProver.call] using ih
      | sendRequest io e => cases io <;> cases hm : c.mode <;> simpa [JsProver.call, hm] using ih
  have hcb := hcb (calls.take n)
  generalize (Sdk.runCalls (JsProver.call c) ⟨.initialized, false⟩ (calls.take n)).1 = p at hr hcb
  obtain ⟨e1, e2⟩ := call_events c p call
  rw [← hr] at e1 e2
  simp only at e1 e2
  constructor
  · intro hm
    rw [hcb.2 hm] at e1 e2
    exact ⟨e1, e2⟩
  · intro hm
    have : p.callback = false := by
      cases hb : p.callback with
      | false => rfl
      | true => exact absurd (hcb.1 hb) hm
    rw [this] at e1 e2
    by_cases hs : reply.succeeded
    · exact e1 hs
    · exact e2 hs

/-- The events of completion that a state allows to have been told. -/
def maxDone : PState → List Progress
  | .initialized => []
  | .acceptedMpc | .acceptedProxy => [.setupDone]
  | .committed _ => [.setupDone, .requestComplete]
  | .complete | .error => [.setupDone, .requestComplete, .finalized]

/-- A call that succeeds moves on by its own event, one that does not tells nothing. -/
theorem maxDone_step (c : SdkProverConfig) (s : PState) (call : PCall) :
    (maxDone s).Sublist (maxDone (Sdk.proverCall c s call).1) ∧
    ((Sdk.proverCall c s call).2.succeeded →
      match call with
      | .setup _ => (maxDone s ++ [Progress.setupDone]).Sublist (maxDone (Sdk.proverCall c s call).1)
      | .sendMpc _ | .sendProxy _ => (maxDone s ++ [Progress.requestComplete]).Sublist (maxDone (Sdk.proverCall c s call).1)
      | .transcript => True
      | .reveal _ _ _ _ => (maxDone s ++ [Progress.finalized]).Sublist (maxDone (Sdk.proverCall c s call).1)) := by
  cases call with
  | transcript => cases s <;> exact ⟨List.Sublist.refl _, fun _ => trivial⟩
  | setup e =>
    unfold Sdk.proverCall Sdk.proverSetup
    cases s <;> try exact ⟨by simp [maxDone], fun h => h.elim⟩
    simp only
    cases c.mode with
    | proxy =>
      simp only
      cases c.validName with
      | false => exact ⟨by simp [maxDone], fun h => h.elim⟩
      | true => cases e <;> first | exact ⟨by simp [maxDone], fun h => h.elim⟩ | exact ⟨by simp [maxDone], fun _ => by simp [maxDone]⟩
    | mpc =>
      simp only
      cases c.commitConfig with
      | error _ => exact ⟨by simp [maxDone], fun h => h.elim⟩
      | ok _ => cases e <;> first | exact ⟨by simp [maxDone], fun h => h.elim⟩ | exact ⟨by simp [maxDone], fun _ => by simp [maxDone]⟩
  | sendMpc e =>
    unfold Sdk.proverCall
    cases s <;> try exact ⟨by simp [maxDone], fun h => h.elim⟩
    simp only
    unfold Sdk.proverSend
    cases c.validName with
    | false => exact ⟨by simp [maxDone], fun h => h.elim⟩
    | true => cases e <;> first | exact ⟨by simp [maxDone], fun h => h.elim⟩ | exact ⟨by simp [maxDone], fun _ => by simp [maxDone]⟩
  | sendProxy e =>
    unfold Sdk.proverCall
    cases s <;> try exact ⟨by simp [maxDone], fun h => h.elim⟩
    simp only
    unfold Sdk.proverSend
    cases c.validName with
    | false => exact ⟨by simp [maxDone], fun h => h.elim⟩
    | true => cases e <;> first | exact ⟨by simp [maxDone], fun h => h.elim⟩ | exact ⟨by simp [maxDone], fun _ => by simp [maxDone]⟩
  | reveal r commit order e =>
    unfold Sdk.proverCall Sdk.proverReveal
    cases s <;> try exact ⟨by simp [maxDone], fun h => h.elim⟩
    rename_i t
    simp only
    cases Sdk.revealConfig t order r commit with
    | error _ => exact ⟨by simp [maxDone], fun h => h.elim⟩
    | ok cfg =>
      simp only
      cases e cfg with
      | failed => exact ⟨by simp [maxDone], fun h => h.elim⟩
      | dropped => exact ⟨by simp [maxDone], fun h => h.elim⟩
      | done out =>
        simp only
        cases Sdk.buildRevealOutput out with
        | error _ => exact ⟨by simp [maxDone], fun h => h.elim⟩
        | ok o => exact ⟨by simp [maxDone], fun _ => by simp [maxDone]⟩

/-- **C115**: over the life of a prover, JavaScript is told at most once that the setup is done, then at most once that a
response was received, and then at most once that the proof is finished, in this order. -/
theorem C115_progress (c : SdkProverConfig) (calls : List JsCall) :
    (((runJs c calls).2.flatMap (·.2.1)).filter Progress.isDone).Sublist [.setupDone, .requestComplete, .finalized] := by
  have key := Sdk.runCalls_inv (step := JsProver.call c) (s0 := ⟨.initialized, false⟩)
    (P := fun p log => ((log.flatMap (·.2.1)).filter Progress.isDone).Sublist (maxDone p.inner)) (by simp [maxDone])
    (fun p log call hp => by
      rw [List.flatMap_append, List.filter_append]
      obtain ⟨e1, e2⟩ := call_events c p call
      have hnone : call.announced.1.filter Progress.isDone = [] := by cases call <;> rfl
      have hn : ¬ (p.call c call).2.2.succeeded → ([(call, (p.call c call).2)].flatMap (·.2.1)).filter Progress.isDone = [] := by
        intro hs
        simp only [List.flatMap_cons, List.flatMap_nil, List.append_nil, e2 hs]
        cases p.callback with
        | true => exact hnone
        | false => rfl
      have hy : (p.call c call).2.2.succeeded →
          (([(call, (p.call c call).2)].flatMap (·.2.1)).filter Progress.isDone).Sublist call.announced.2 := by
        intro hs
        simp only [List.flatMap_cons, List.flatMap_nil, List.append_nil, e1 hs]
        cases p.callback with
        | true =>
          simp only [if_true, List.filter_append, hnone, List.nil_append]
          exact List.filter_sublist
        | false => simp
      cases hk : call.meant c.mode with
      | none =>
        obtain ⟨h1, h2⟩ := call_not_meant c p call hk
        rw [h1]
        by_cases hs : (p.call c call).2.2.succeeded
        · have ha : call.announced.2 = [] := by
            cases call with
            | setProgressCallback => rfl
            | transcript => rfl
            | setup e => cases hk
            | reveal r commit order e => cases hk
            | sendRequest io e =>
              cases hr : (p.call c (.sendRequest io e)).2.2 with
              | sdk r => rw [hr] at h2; cases h2
              | refused => rw [hr] at hs; exact hs.elim
              | set => cases io <;> cases hm : c.mode <;> simp only [JsProver.call, hm] at hr <;> cases hr
          have := hy hs
          rw [ha, List.sublist_nil] at this
          rw [this, List.append_nil]
          exact hp
        · rw [hn hs, List.append_nil]
          exact hp
      | some k =>
        obtain ⟨h1, h2⟩ := call_meant c p call k hk
        obtain ⟨m1, m2⟩ := maxDone_step c p.inner k
        rw [h1]
        simp only
        by_cases hs : (p.call c call).2.2.succeeded
        · have hs' : (Sdk.proverCall c p.inner k).2.succeeded := by rw [h2] at hs; exact hs
          have hsub := (hp.append (hy hs))
          have m2 := m2 hs'
          refine hsub.trans ?_
          cases call with
          | setProgressCallback => cases hk
          | transcript => simp only [JsCall.announced, List.append_nil]; exact m1
          | setup e => cases hk; exact m2
          | reveal r commit order e => cases hk; exact m2
          | sendRequest io e =>
            cases io <;> cases hm : c.mode <;> simp only [JsCall.meant, hm, if_true, if_false, reduceCtorEq] at hk
            · cases hk; exact m2
            · cases hk; exact m2
        · rw [hn hs, List.append_nil]
          exact hp.trans m1) calls
  refine key.trans ?_
  unfold runJs at *
  cases (Sdk.runCalls (JsProver.call c) ⟨.initialized, false⟩ calls).1.inner <;> simp [maxDone]

/-- The events of the call whose completion an event tells. -/
def expandDone : Progress → List Progress
  | .setupDone => [.setupStarted, .setupDone]
  | .requestComplete => [.connecting, .sending, .requestComplete]
  | .finalized => [.revealing, .finalized]
  | _ => []

theorem done_pairwise (s : PState) : ((maxDone s).flatMap expandDone).Pairwise fun e e' => e.json.2 < e'.json.2 := by
  cases s <;> simp [maxDone, expandDone, Progress.json]

/-- **C115**: the percentage that JavaScript is told grows: within a call, and from each call that succeeds to each later one
that does. -/
theorem C115_percent (c : SdkProverConfig) (calls : List JsCall) :
    (∀ x ∈ (runJs c calls).2, x.2.1.Pairwise fun e e' => e.json.2 < e'.json.2) ∧
    (runJs c calls).2.Pairwise fun x y => x.2.2.succeeded → y.2.2.succeeded → ∀ e ∈ x.2.1, ∀ e' ∈ y.2.1, e.json.2 < e'.json.2 := by
  have key := Sdk.runCalls_inv (step := JsProver.call c) (s0 := ⟨.initialized, false⟩)
    (P := fun p log => (∀ x ∈ log, x.2.1.Pairwise fun e e' => e.json.2 < e'.json.2) ∧
      (∀ x ∈ log, x.2.2.succeeded → ∀ e ∈ x.2.1, e ∈ (maxDone p.inner).flatMap expandDone) ∧
      log.Pairwise fun x y => x.2.2.succeeded → y.2.2.succeeded → ∀ e ∈ x.2.1, ∀ e' ∈ y.2.1, e.json.2 < e'.json.2)
    ⟨by simp, by simp, .nil⟩
    (fun p log call ⟨hp1, hp2, hp3⟩ => by
      obtain ⟨e1, e2⟩ := call_events c p call
      have hin : (p.call c call).2.1.Pairwise fun e e' => e.json.2 < e'.json.2 := by
        by_cases hs : (p.call c call).2.2.succeeded
        · rw [e1 hs]
          cases p.callback <;> cases call <;> simp [JsCall.announced, Progress.json]
        · rw [e2 hs]
          cases p.callback <;> cases call <;> simp [JsCall.announced, Progress.json]
      have hexp : call.announced.1 ++ call.announced.2 = call.announced.2.flatMap expandDone := by
        cases call <;> simp [JsCall.announced, expandDone]
      have hnew : (p.call c call).2.2.succeeded → (p.call c call).2.1 = [] ∨
          ((maxDone p.inner ++ call.announced.2).Sublist (maxDone (p.call c call).1.inner) ∧
            ∀ e ∈ (p.call c call).2.1, e ∈ call.announced.2.flatMap expandDone) := by
        intro hs
        rw [e1 hs, ← hexp]
        cases hb : p.callback with
        | false => exact .inl rfl
        | true =>
          cases hk : call.meant c.mode with
          | none =>
            left
            cases call with
            | setProgressCallback => rfl
            | transcript => rfl
            | setup e => cases hk
            | reveal r commit order e => cases hk
            | sendRequest io e =>
              have h2 := (call_not_meant c p _ hk).2
              cases hr : (p.call c (.sendRequest io e)).2.2 with
              | sdk r => rw [hr] at h2; cases h2
              | refused => rw [hr] at hs; exact hs.elim
              | set => cases io <;> cases hm : c.mode <;> simp only [JsProver.call, hm] at hr <;> cases hr
          | some k =>
            right
            refine ⟨?_, fun e he => he⟩
            obtain ⟨h1, h2⟩ := call_meant c p call k hk
            obtain ⟨m1, m2⟩ := maxDone_step c p.inner k
            rw [h2] at hs
            have m2 := m2 hs
            rw [h1]
            cases call with
            | setProgressCallback => cases hk
            | transcript => simp only [JsCall.announced, List.append_nil]; exact m1
            | setup e => cases hk; exact m2
            | reveal r commit order e => cases hk; exact m2
            | sendRequest io e =>
              cases io <;> cases hm : c.mode <;> simp only [JsCall.meant, hm, if_true, if_false, reduceCtorEq] at hk
              · cases hk; exact m2
              · cases hk; exact m2
      have hmono : (maxDone p.inner).Sublist (maxDone (p.call c call).1.inner) := by
        cases hk : call.meant c.mode with
        | none => rw [(call_not_meant c p call hk).1]
        | some k => rw [(call_meant c p call k hk).1]; exact (maxDone_step c p.inner k).1
      have hup : ∀ (l : List Progress), l.Sublist (maxDone (p.call c call).1.inner) → ∀ e ∈ l.flatMap expandDone,
          e ∈ (maxDone (p.call c call).1.inner).flatMap expandDone := by
        intro l hl e he
        obtain ⟨d, hd, he⟩ := List.mem_flatMap.1 he
        exact List.mem_flatMap.2 ⟨d, hl.subset hd, he⟩
      refine ⟨fun x hx => ?_, fun x hx hs e he => ?_, List.pairwise_append.2 ⟨hp3, List.pairwise_singleton _ _, ?_⟩⟩
      · rcases List.mem_append.1 hx with hx | hx
        · exact hp1 x hx
        · simp only [List.mem_singleton] at hx; subst hx; exact hin
      · rcases List.mem_append.1 hx with hx | hx
        · exact hup _ hmono e (hp2 x hx hs e he)
        · simp only [List.mem_singleton] at hx
          subst hx
          rcases hnew hs with h | ⟨h1, h2⟩
          · simp only [h] at he; cases he
          · exact hup _ h1 e (by rw [List.flatMap_append]; exact List.mem_append_right _ (h2 e he))
      · intro x hx y hy hsx hsy e he e' he'
        simp only [List.mem_singleton] at hy
        subst hy
        rcases hnew hsy with h | ⟨h1, h2⟩
        · simp only [h] at he'; cases he'
        · have hpw := (done_pairwise (p.call c call).1.inner).sublist (h1.flatMap expandDone)
          rw [List.flatMap_append, List.pairwise_append] at hpw
          exact hpw.2.2 e (hp2 x hx hsx e he) e' (h2 e' he')) calls
  exact ⟨key.1, key.2.2⟩

/-- The transcript of a state is that of a request that succeeded. -/
theorem committed_sent (c : SdkProverConfig) (calls : List JsCall) (t : Transcript)
    (h : (runJs c calls).1.inner = .committed t) :
    ∃ io ev, (.sendRequest io (.done t), ev, .sdk .ok) ∈ (runJs c calls).2 := by
  have key := Sdk.runCalls_inv (step := JsProver.call c) (s0 := ⟨.initialized, false⟩)
    (P := fun p log => ∀ t, p.inner = .committed t → ∃ io ev, (.sendRequest io (.done t), ev, .sdk .ok) ∈ log)
    (fun t ht => by cases ht)
    (fun p log call hp t ht => by
      have old : ∀ t, p.inner = .committed t → ∃ io ev, (.sendRequest io (.done t), ev, .sdk .ok) ∈ log ++ [(call, (p.call c call).2)] :=
        fun t h => by
          obtain ⟨io, ev, h⟩ := hp t h
          exact ⟨io, ev, List.mem_append_left _ h⟩
      cases hk : call.meant c.mode with
      | none => exact old t ((call_not_meant c p call hk).1 ▸ ht)
      | some k =>
        obtain ⟨h1, h2⟩ := call_meant c p call k hk
        rw [h1] at ht
        simp only at ht
        have send : ∀ e, Sdk.proverSend c e = ((Sdk.proverSend c e).1, (Sdk.proverSend c e).2) ∧
            ((Sdk.proverSend c e).1 = .committed t → e = .done t ∧ (Sdk.proverSend c e).2 = .ok) := by
          intro e
          refine ⟨rfl, fun h => ?_⟩
          unfold Sdk.proverSend at h ⊢
          cases hv : c.validName with
          | false => simp [hv] at h
          | true => cases e <;> simp_all
        have fin : ∀ e, call = .sendRequest true e ∨ call = .sendRequest false e → (Sdk.proverCall c p.inner k) = Sdk.proverSend c e →
            ∃ io ev, (.sendRequest io (.done t), ev, .sdk .ok) ∈ log ++ [(call, (p.call c call).2)] := by
          intro e hc he
          rw [he] at ht h2
          obtain ⟨rfl, hr⟩ := (send e).2 ht
          rw [hr] at h2
          rcases hc with rfl | rfl
          · exact ⟨true, (p.call c (.sendRequest true (.done t))).2.1, List.mem_append_right _ (by rw [← h2]; exact List.mem_singleton.2 rfl)⟩
          · exact ⟨false, (p.call c (.sendRequest false (.done t))).2.1, List.mem_append_right _ (by rw [← h2]; exact List.mem_singleton.2 rfl)⟩
        cases call with
        | setProgressCallback => cases hk
        | setup e =>
          cases hk
          exfalso
          unfold Sdk.proverCall Sdk.proverSetup at ht
          cases hi : p.inner <;> simp only [hi] at ht <;> try cases ht
          cases hm : c.mode <;> simp only [hm] at ht
          · cases hcc : c.commitConfig <;> simp only [hcc] at ht <;> try cases ht
            cases e <;> cases ht
          · cases hv : c.validName <;> simp only [hv] at ht
            · cases ht
            · cases e <;> cases ht
        | transcript =>
          cases hk
          unfold Sdk.proverCall at ht
          cases hi : p.inner <;> simp only [hi] at ht <;> first | cases ht | skip
          exact old _ hi
        | reveal r commit order e =>
          exfalso
          simp only [JsCall.meant, Option.some.injEq] at hk
          subst hk
          have := Sdk.reveal_dead c p.inner ⟨r.sent, r.recv, r.serverIdentity⟩
            (commit.map fun c => ⟨c.sent.map fun x => ⟨x.start, x.stop, x.algorithm.named⟩,
              c.recv.map fun x => ⟨x.start, x.stop, x.algorithm.named⟩⟩) order e
          rw [ht] at this
          exact this
        | sendRequest io e =>
          cases io <;> cases hm : c.mode <;> simp only [JsCall.meant, hm, if_true, if_false, reduceCtorEq] at hk
          · cases hk
            cases hi : p.inner <;> (try (rw [hi] at ht; cases ht))
            exact fin e (.inr rfl) (by rw [hi]; rfl)
          · cases hk
            cases hi : p.inner <;> (try (rw [hi] at ht; cases ht))
            exact fin e (.inl rfl) (by rw [hi]; rfl)) calls
  exact key t h

/-- The ranges of a commitment in a direction. -/
def JsCommit.of (c : Option JsCommit) (d : Direction) : List JsCommitRange :=
  match c, d with
  | none, _ => []
  | some c, .sent => c.sent
  | some c, .received => c.recv

/-- **C115**: when `reveal` succeeds, the proof was made of the transcript of the request that succeeded before, and it
shows exactly the bytes of the ranges that JavaScript gave, shows the server's name if it was asked to, and commits to
exactly the given ranges with the given algorithms. -/
theorem C115_reveal (c : SdkProverConfig) (calls : List JsCall) (n : Nat) (r : JsReveal) (commit : Option JsCommit)
    (order : List CommitEntry → List CommitEntry) (ho : ∀ l, (order l).Perm l) (e : ProveConfig → Ext ProverOutput)
    (ev : List Progress) (reply : JsReply)
    (h : (runJs c calls).2[n]? = some (.reveal r commit order e, ev, reply)) (hs : reply.succeeded) :
    ∃ t cfg out o, (∃ io ev, (.sendRequest io (.done t), ev, .sdk .ok) ∈ (runJs c calls).2.take n) ∧
      e cfg = .done out ∧ Sdk.buildRevealOutput out = .ok o ∧ reply = .sdk (.output o) ∧
      cfg.serverIdentity = r.serverIdentity ∧
      (∀ i, revealedIn cfg.reveal .sent i ↔ ∃ x ∈ r.sent, x.1 ≤ i ∧ i < x.2) ∧
      (∀ i, revealedIn cfg.reveal .received i ↔ ∃ x ∈ r.recv, x.1 ≤ i ∧ i < x.2) ∧
      (cfg.transcriptCommit = none ↔ commit = none) ∧
      ∀ cc, cfg.transcriptCommit = some cc → ∀ d idx k, ((d, idx), k) ∈ cc.commits ↔
        ∃ x ∈ JsCommit.of commit d, idx = RangeSet.ofRanges [(x.start, x.stop)] ∧ k = x.algorithm.named.id := by
  unfold runJs at h ⊢
  obtain ⟨h0, -, hr⟩ := Sdk.runCalls_get h
  rw [h0]
  obtain ⟨-, h2⟩ := call_meant c (Sdk.runCalls (JsProver.call c) ⟨.initialized, false⟩ (calls.take n)).1
    (.reveal r commit order e) _ rfl
  rw [← hr] at h2
  simp only at h2
  subst h2
  have hsent := committed_sent c (calls.take n)
  unfold runJs at hsent
  generalize Sdk.runCalls (JsProver.call c) ⟨.initialized, false⟩ (calls.take n) = run at hs hsent
  obtain ⟨p, log⟩ := run
  simp only at hs hsent ⊢
  simp only [JsReply.succeeded, Sdk.proverCall, Sdk.proverReveal] at hs ⊢
  cases hi : p.inner <;> simp only [hi] at hs ⊢ <;> first | exact hs.elim | skip
  rename_i t
  obtain ⟨io, ev', hmem⟩ := hsent t hi
  cases hcfg : Sdk.revealConfig t order ⟨r.sent, r.recv, r.serverIdentity⟩
      (commit.map fun c => ⟨c.sent.map fun x => ⟨x.start, x.stop, x.algorithm.named⟩,
        c.recv.map fun x => ⟨x.start, x.stop, x.algorithm.named⟩⟩) with
  | error _ => simp only [hcfg] at hs; exact hs.elim
  | ok cfg =>
    simp only [hcfg] at hs ⊢
    cases he : e cfg <;> simp only [he] at hs ⊢ <;> first | exact hs.elim | skip
    rename_i out
    cases hb : Sdk.buildRevealOutput out <;> simp only [hb] at hs ⊢ <;> first | exact hs.elim | skip
    rename_i o
    obtain ⟨g1, g2, g3, g4⟩ := Sdk.revealConfig_ok ho hcfg
    refine ⟨t, cfg, out, o, ⟨io, ev', hmem⟩, he, hb, rfl, g1, fun i => g2 .sent i, fun i => g2 .received i, ?_, ?_⟩
    · rw [g3]
      cases commit <;> simp
    · intro cc hcc d idx k
      rw [(g4 cc hcc).2 d idx k]
      cases commit with
      | none => cases d <;> simp [Sdk.commitArg, JsCommit.of]
      | some cm =>
        cases d
        all_goals
          simp only [Option.map_some, Sdk.commitArg, JsCommit.of, List.mem_map]
          constructor
          · rintro ⟨_, ⟨x, hx, rfl⟩, h1, h2⟩
            exact ⟨x, hx, h1, h2⟩
          · rintro ⟨x, hx, h1, h2⟩
            exact ⟨_, ⟨x, hx, rfl⟩, h1, h2⟩

/-- **C115**: `transcript` gives the transcript of the request that succeeded, until the proof is made. -/
theorem C115_transcript (c : SdkProverConfig) (calls : List JsCall) (n : Nat) (ev : List Progress) (t : Transcript)
    (h : (runJs c calls).2[n]? = some (.transcript, ev, .sdk (.transcript t))) :
    ∃ io ev, (.sendRequest io (.done t), ev, .sdk .ok) ∈ (runJs c calls).2.take n := by
  unfold runJs at h ⊢
  obtain ⟨h0, -, hr⟩ := Sdk.runCalls_get h
  rw [h0]
  have hsent := committed_sent c (calls.take n) t
  unfold runJs at hsent
  refine hsent ?_
  obtain ⟨-, h2⟩ := call_meant c (Sdk.runCalls (JsProver.call c) ⟨.initialized, false⟩ (calls.take n)).1 .transcript _ rfl
  rw [← hr] at h2
  generalize (Sdk.runCalls (JsProver.call c) ⟨.initialized, false⟩ (calls.take n)).1 = p at h2 ⊢
  simp only [JsReply.sdk.injEq, Sdk.proverCall] at h2
  cases hi : p.inner <;> simp only [hi] at h2 <;> first | cases h2 | skip
  rfl

/-! ## A case -/

/-- A prover in MPC mode. -/
def exampleJs : JsProverConfig :=
  ⟨['a', '.', 'b'], .mpc, 100, none, some 40, 200, some 3, none, .bandwidth, some ([[1], [2]], [9]), some [[7]]⟩

/-- Roots are readable if they are not empty, PEM is a byte 1 in front. -/
def exampleReads : Reads where
  anchor := fun b => if b = [] then none else some b
  dns := fun t => if t = [] then none else some [0x61]
  pem := fun b => if b = [1] then some [5, 5] else none
  mozilla := none

example : newJsProver exampleReads exampleJs =
    some ⟨⟨['a', '.', 'b'], true, .mpc, 100, none, some 40, 200, some 3, none, .bandwidth⟩, some ([[1], [2]], [9]), [[7]]⟩ := by
  decide +kernel

example : (match convertProverConfig exampleReads exampleJs with
    | .ok core => match core.tlsConfig exampleReads with
      | .ok t => some t
      | .error _ => none
    | .error _ => none) = some ⟨[0x61], [[7]], some ([[5, 5], [2]], [9])⟩ := by decide +kernel

example : (match convertProverConfig exampleReads { exampleJs with rootCerts := some [[7], []] } with
    | .ok _ => none
    | .error e => some e) = some (.invalid 1) := by decide +kernel

/-- A life: the callback is set, a request without a channel is refused, and the right ones follow. -/
def exampleCalls : List JsCall :=
  [.setProgressCallback, .setup (.done ()), .sendRequest false (.done ⟨[1, 2], [3]⟩), .sendRequest true (.done ⟨[1, 2], [3]⟩),
    .transcript, .reveal ⟨[(0, 1)], [], true⟩ none id fun _ => .done ⟨[], []⟩]

example : (runJs ⟨['a'], true, .mpc, 100, none, none, 200, none, none, .latency⟩ exampleCalls).2.map (·.2.1) =
    [[], [.setupStarted, .setupDone], [.connecting, .sending], [.connecting, .sending, .requestComplete], [],
      [.revealing, .finalized]] := by decide +kernel

end Tlsn.Wasm
