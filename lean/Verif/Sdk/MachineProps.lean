import Verif.Sdk.Machine
import Mathlib.Data.List.Induction

/-! # C75 and C76: the SDK's limits and its order of calls -/

namespace Tlsn.Sdk

/-! ## Specification -/

/-- The call takes the state out, so that it can succeed once (all but `transcript`). -/
def PCall.takes : PCall → Bool
  | .transcript => false
  | _ => true

/-- The call succeeded. -/
def PReply.succeeded : PReply → Prop
  | .err _ | .dropped => False
  | _ => True

/-- The call is the request of the configured mode, and it gave this transcript. -/
def IsSend (c : SdkProverConfig) (call : PCall) (t : Transcript) : Prop :=
  (c.mode = .mpc ∧ call = .sendMpc (.done t)) ∨ (c.mode = .proxy ∧ call = .sendProxy (.done t))

/-- The calls (other than `transcript`) that must come before a successful one, with their replies. -/
def ProverReady (c : SdkProverConfig) (call : PCall) (reply : PReply) (before : List (PCall × PReply)) : Prop :=
  match call with
  | .setup _ => before = []
  | .sendMpc _ => c.mode = .mpc ∧ ∃ e, before = [(.setup e, .ok)]
  | .sendProxy _ => c.mode = .proxy ∧ ∃ e, before = [(.setup e, .ok)]
  | .transcript => ∃ e send t, IsSend c send t ∧ before = [(.setup e, .ok), (send, .ok)] ∧ reply = .transcript t
  | .reveal r commit order _ => ∃ e send t, IsSend c send t ∧ before = [(.setup e, .ok), (send, .ok)] ∧
      ∃ cfg, revealConfig t order r commit = .ok cfg

/-- The call takes the state out (all but `set_server_socket`). -/
def VCall.takes : VCall → Bool
  | .setServerSocket => false
  | _ => true

/-- The call succeeded. -/
def VReply.succeeded : VReply → Prop
  | .err _ | .dropped => False
  | _ => True

/-- The proposed sizes are within the verifier's limits.  A record count is compared when both sides gave one, and
giving one to a verifier without a limit is not accepted. -/
structure WithinLimits (l : SdkVerifierConfig) (c : MpcTlsConfig) : Prop where
  sent : c.maxSentData ≤ l.maxSentData
  recv : c.maxRecvData ≤ l.maxRecvData
  sentRecords : ∀ n, c.maxSentRecords = some n → ∃ k, l.maxSentRecords = some k ∧ n ≤ k
  recvRecords : ∀ n, c.maxRecvRecordsOnline = some n → ∃ k, l.maxRecvRecordsOnline = some k ∧ n ≤ k

/-- The proposal was accepted, and this was the reply to the caller. -/
def Agreed (l : SdkVerifierConfig) (p : Proposal) (r : VReply) : Prop :=
  (∃ c, p = .mpc c (.done ()) ∧ r = .ok ∧ WithinLimits l c) ∨ ∃ name, p = .proxy name (.done ()) ∧ r = .proxyFor name

/-- The calls that must come before a successful one. -/
def VerifierReady (l : SdkVerifierConfig) (call : VCall) (before : List (VCall × VReply)) : Prop :=
  let taking := before.filter (·.1.takes)
  match call with
  | .connect _ => taking = []
  | .setup _ => ∃ e, taking = [(.connect e, .ok)]
  | .setServerSocket => ∃ e name, taking = [(.connect e, .ok), (.setup (.done (.proxy name (.done ()))), .proxyFor name)]
  | .run _ => ∃ e p r, Agreed l p r ∧ taking = [(.connect e, .ok), (.setup (.done p), r)] ∧
      (∀ name, r = .proxyFor name → (VCall.setServerSocket, VReply.ok) ∈ before)
  | .verify .. => ∃ e p r e', Agreed l p r ∧ taking = [(.connect e, .ok), (.setup (.done p), r), (.run e', .ok)] ∧
      (∀ name, r = .proxyFor name → (VCall.setServerSocket, VReply.ok) ∈ before)

/-! ## Runs -/

section
variable {σ κ ρ : Type} {step : σ → κ → σ × ρ} {s0 : σ}

theorem runCalls_snoc (calls : List κ) (call : κ) :
    runCalls step s0 (calls ++ [call]) = ((step (runCalls step s0 calls).1 call).1,
      (runCalls step s0 calls).2 ++ [(call, (step (runCalls step s0 calls).1 call).2)]) := by
  simp [runCalls, List.foldl_append]

theorem runCalls_length (calls : List κ) : (runCalls step s0 calls).2.length = calls.length := by
  induction calls using List.reverseRecOn with
  | nil => rfl
  | append_singleton calls call ih => rw [runCalls_snoc]; simp [ih]

theorem runCalls_split (calls rest : List κ) : ∃ tail, (runCalls step s0 (calls ++ rest)).2 =
    (runCalls step s0 calls).2 ++ tail := by
  induction rest using List.reverseRecOn with
  | nil => exact ⟨[], by simp⟩
  | append_singleton rest call ih =>
    obtain ⟨tail, h⟩ := ih
    rw [← List.append_assoc, runCalls_snoc, h]
    exact ⟨_, List.append_assoc _ _ _⟩

/-- An entry of the log is a call made in the state the calls before it led to. -/
theorem runCalls_get {calls : List κ} {n : Nat} {call : κ} {reply : ρ}
    (h : (runCalls step s0 calls).2[n]? = some (call, reply)) :
    (runCalls step s0 calls).2.take n = (runCalls step s0 (calls.take n)).2 ∧
      calls[n]? = some call ∧ reply = (step (runCalls step s0 (calls.take n)).1 call).2 := by
  obtain ⟨hn, -⟩ := List.getElem?_eq_some_iff.1 h
  rw [runCalls_length] at hn
  have hsplit : calls = calls.take n ++ ([calls[n]] ++ calls.drop (n + 1)) := by
    simp
  obtain ⟨tail, h1⟩ := runCalls_split (step := step) (s0 := s0) (calls.take n ++ [calls[n]]) (calls.drop (n + 1))
  rw [List.append_assoc, ← hsplit, runCalls_snoc] at h1
  have hl : (runCalls step s0 (calls.take n)).2.length = n := by rw [runCalls_length]; simp; omega
  rw [h1] at h ⊢
  rw [List.append_assoc] at h ⊢
  rw [List.getElem?_append_right (by omega), hl, Nat.sub_self] at h
  simp only [List.cons_append, List.nil_append, List.getElem?_cons_zero, Option.some.injEq, Prod.mk.injEq] at h
  refine ⟨?_, ?_, ?_⟩
  · rw [List.take_append_of_le_length (by omega), List.take_of_length_le (by omega)]
  · rw [List.getElem?_eq_getElem hn, h.1]
  · rw [← h.2, h.1]

/-- A condition on states and logs kept by every step holds of every run. -/
theorem runCalls_inv {P : σ → List (κ × ρ) → Prop} (h0 : P s0 [])
    (hstep : ∀ s log call, P s log → P (step s call).1 (log ++ [(call, (step s call).2)])) (calls : List κ) :
    P (runCalls step s0 calls).1 (runCalls step s0 calls).2 := by
  induction calls using List.reverseRecOn with
  | nil => exact h0
  | append_singleton calls call ih => rw [runCalls_snoc]; exact hstep _ _ _ ih

/-- Once in a state of a class closed under steps, all replies are those of the class. -/
theorem runCalls_closed {Dead : σ → Prop} {Bad : ρ → Prop}
    (hd : ∀ s call, Dead s → Dead (step s call).1 ∧ Bad (step s call).2) {calls : List κ} {n m : Nat} (hnm : n < m)
    (hn : Dead (runCalls step s0 (calls.take (n + 1))).1) {call : κ} {reply : ρ}
    (h : (runCalls step s0 calls).2[m]? = some (call, reply)) : Bad reply := by
  obtain ⟨-, -, hr⟩ := runCalls_get h
  obtain ⟨hm, -⟩ := List.getElem?_eq_some_iff.1 h
  rw [runCalls_length] at hm
  have key : ∀ k, Dead (runCalls step s0 (calls.take (n + 1 + k))).1 := by
    intro k
    induction k with
    | zero => exact hn
    | succ k ih =>
      by_cases hlt : n + 1 + k < calls.length
      · have : calls.take (n + 1 + (k + 1)) = calls.take (n + 1 + k) ++ [calls[n + 1 + k]] := by
          rw [show n + 1 + (k + 1) = n + 1 + k + 1 by omega, List.take_succ_eq_append_getElem hlt]
        rw [this, runCalls_snoc]
        exact (hd _ _ ih).1
      · rw [List.take_of_length_le (by omega)] at ih ⊢
        exact ih
  have := key (m - (n + 1))
  rw [show n + 1 + (m - (n + 1)) = m by omega] at this
  rw [hr]
  exact (hd _ _ this).2

theorem runCalls_after {calls : List κ} {n : Nat} {call : κ} {reply : ρ}
    (h : (runCalls step s0 calls).2[n]? = some (call, reply)) :
    (runCalls step s0 (calls.take (n + 1))).1 = (step (runCalls step s0 (calls.take n)).1 call).1 := by
  obtain ⟨-, h1, -⟩ := runCalls_get h
  obtain ⟨hn, h2⟩ := List.getElem?_eq_some_iff.1 h1
  rw [List.take_succ_eq_append_getElem hn, runCalls_snoc, h2]

end

/-! ## The prover -/

/-- What a state says about the calls made. -/
def PInv (c : SdkProverConfig) (s : PState) (log : List (PCall × PReply)) : Prop :=
  match s with
  | .initialized => log.filter (·.1.takes) = []
  | .acceptedMpc => c.mode = .mpc ∧ ∃ e, log.filter (·.1.takes) = [(.setup e, .ok)]
  | .acceptedProxy => c.mode = .proxy ∧ ∃ e, log.filter (·.1.takes) = [(.setup e, .ok)]
  | .committed t => ∃ e send, IsSend c send t ∧ log.filter (·.1.takes) = [(.setup e, .ok), (send, .ok)]
  | .complete => True
  | .error => True

theorem pinv_step (c : SdkProverConfig) (s : PState) (log : List (PCall × PReply)) (call : PCall) (h : PInv c s log) :
    PInv c (proverCall c s call).1 (log ++ [(call, (proverCall c s call).2)]) := by
  cases call with
  | setup e =>
    unfold proverCall proverSetup
    cases s <;> try exact trivial
    simp only
    cases hm : c.mode with
    | mpc =>
      simp only
      cases c.commitConfig with
      | error _ => exact trivial
      | ok _ =>
        cases e with
        | done a => exact ⟨hm, _, by rw [List.filter_append, h]; rfl⟩
        | failed => exact trivial
        | dropped => exact trivial
    | proxy =>
      simp only
      cases hv : c.validName with
      | false => exact trivial
      | true =>
        cases e with
        | done a => exact ⟨hm, _, by rw [List.filter_append, h]; rfl⟩
        | failed => exact trivial
        | dropped => exact trivial
  | sendMpc e =>
    unfold proverCall
    cases s <;> try exact trivial
    simp only
    unfold proverSend
    cases c.validName with
    | false => exact trivial
    | true =>
      cases e with
      | done t =>
        obtain ⟨h1, e, h2⟩ := h
        exact ⟨e, _, .inl ⟨h1, rfl⟩, by rw [List.filter_append, h2]; rfl⟩
      | failed => exact trivial
      | dropped => exact trivial
  | sendProxy e =>
    unfold proverCall
    cases s <;> try exact trivial
    simp only
    unfold proverSend
    cases c.validName with
    | false => exact trivial
    | true =>
      cases e with
      | done t =>
        obtain ⟨h1, e, h2⟩ := h
        exact ⟨e, _, .inr ⟨h1, rfl⟩, by rw [List.filter_append, h2]; rfl⟩
      | failed => exact trivial
      | dropped => exact trivial
  | transcript =>
    unfold proverCall
    cases s <;> simp only [PInv, List.filter_append] at h ⊢ <;> simpa [PCall.takes] using h
  | reveal r commit order e =>
    unfold proverCall proverReveal
    cases s <;> try exact trivial
    rename_i t
    simp only
    cases revealConfig t order r commit with
    | error _ => exact trivial
    | ok cfg =>
      simp only
      cases e cfg with
      | done out => simp only; cases buildRevealOutput out <;> exact trivial
      | failed => exact trivial
      | dropped => exact trivial

/-- **C76** A prover's call succeeds only in its place: before it, the calls other than `transcript` were exactly a
successful setup and (for `transcript` and `reveal`) a successful request of the configured mode; the transcript
returned is that of the request. -/
theorem C76_prover_order (c : SdkProverConfig) (calls : List PCall) (n : Nat) (call : PCall) (reply : PReply)
    (h : (runProver c calls).2[n]? = some (call, reply)) (hs : reply.succeeded) :
    ProverReady c call reply (((runProver c calls).2.take n).filter (·.1.takes)) := by
  unfold runProver at h ⊢
  obtain ⟨h1, -, h2⟩ := runCalls_get h
  rw [h1]
  have hinv := runCalls_inv (P := PInv c) (step := proverCall c) (s0 := .initialized) rfl
    (fun s log call => pinv_step c s log call) (calls.take n)
  generalize (runCalls (proverCall c) .initialized (calls.take n)).1 = s at h2 hinv
  generalize (runCalls (proverCall c) .initialized (calls.take n)).2 = log at hinv
  subst h2
  cases call with
  | setup e =>
    unfold proverCall proverSetup at hs
    cases s <;> first | exact hs.elim | exact hinv
  | sendMpc e =>
    unfold proverCall at hs
    cases s <;> first | exact hs.elim | exact hinv
  | sendProxy e =>
    unfold proverCall at hs
    cases s <;> first | exact hs.elim | exact hinv
  | transcript =>
    unfold proverCall at hs
    cases s with
    | committed t =>
      obtain ⟨e, send, h3, h4⟩ := hinv
      exact ⟨e, send, t, h3, h4, rfl⟩
    | _ => exact hs.elim
  | reveal r commit order e =>
    unfold proverCall proverReveal at hs
    cases s with
    | committed t =>
      obtain ⟨e, send, h3, h4⟩ := hinv
      simp only at hs
      cases hc : revealConfig t order r commit with
      | error _ => rw [hc] at hs; exact hs.elim
      | ok cfg => exact ⟨e, send, t, h3, h4, cfg, hc⟩
    | _ => exact hs.elim

/-- The prover has no session any more. -/
def PState.Dead : PState → Prop
  | .complete | .error => True
  | _ => False

theorem dead_step (c : SdkProverConfig) (s : PState) (call : PCall) (h : s.Dead) :
    (proverCall c s call).1.Dead ∧ ¬ (proverCall c s call).2.succeeded := by
  cases s <;> first | exact h.elim | (cases call <;> exact ⟨trivial, id⟩)

theorem failed_dead (c : SdkProverConfig) (s : PState) (call : PCall) (ht : call.takes = true)
    (hf : ¬ (proverCall c s call).2.succeeded) : (proverCall c s call).1.Dead := by
  cases call with
  | setup e =>
    unfold proverCall proverSetup at hf ⊢
    cases s <;> try exact trivial
    simp only at hf ⊢
    cases hm : c.mode with
    | mpc =>
      rw [hm] at hf
      simp only at hf ⊢
      cases hcc : c.commitConfig with
      | error _ => exact trivial
      | ok _ => rw [hcc] at hf; cases e <;> first | exact trivial | exact (hf trivial).elim
    | proxy =>
      rw [hm] at hf
      simp only at hf ⊢
      cases hv : c.validName with
      | false => exact trivial
      | true => rw [hv] at hf; cases e <;> first | exact trivial | exact (hf trivial).elim
  | sendMpc e =>
    unfold proverCall at hf ⊢
    cases s <;> try exact trivial
    simp only [proverSend] at hf ⊢
    cases hv : c.validName with
    | false => exact trivial
    | true => rw [hv] at hf; cases e <;> first | exact trivial | exact (hf trivial).elim
  | sendProxy e =>
    unfold proverCall at hf ⊢
    cases s <;> try exact trivial
    simp only [proverSend] at hf ⊢
    cases hv : c.validName with
    | false => exact trivial
    | true => rw [hv] at hf; cases e <;> first | exact trivial | exact (hf trivial).elim
  | transcript => cases ht
  | reveal r commit order e =>
    unfold proverCall proverReveal
    cases s <;> try exact trivial
    rename_i t
    simp only
    cases revealConfig t order r commit with
    | error _ => exact trivial
    | ok cfg =>
      simp only
      cases e cfg with
      | done out => simp only; cases buildRevealOutput out <;> exact trivial
      | failed => exact trivial
      | dropped => exact trivial

theorem reveal_dead (c : SdkProverConfig) (s : PState) (r : Reveal) (commit : Option Commit)
    (order : List CommitEntry → List CommitEntry) (e : ProveConfig → Ext ProverOutput) :
    (proverCall c s (.reveal r commit order e)).1.Dead := by
  unfold proverCall proverReveal
  cases s <;> try exact trivial
  rename_i t
  simp only
  cases revealConfig t order r commit with
  | error _ => exact trivial
  | ok cfg =>
    simp only
    cases e cfg with
    | done out => simp only; cases buildRevealOutput out <;> exact trivial
    | failed => exact trivial
    | dropped => exact trivial

/-- **C76** A failed or abandoned call ends the session: no later call succeeds.  This includes calls refused because they
came at the wrong time. -/
theorem C76_prover_failure_final (c : SdkProverConfig) (calls : List PCall) (n m : Nat) (hnm : n < m)
    (call call' : PCall) (reply reply' : PReply) (h : (runProver c calls).2[n]? = some (call, reply))
    (ht : call.takes = true) (hf : ¬ reply.succeeded) (h' : (runProver c calls).2[m]? = some (call', reply')) :
    ¬ reply'.succeeded := by
  unfold runProver at h h'
  refine runCalls_closed (Dead := PState.Dead) (Bad := fun r => ¬ r.succeeded) (fun s call hd => dead_step c s call hd)
    hnm ?_ h'
  rw [runCalls_after h]
  obtain ⟨-, -, h2⟩ := runCalls_get h
  exact failed_dead c _ call ht (h2 ▸ hf)

/-- **C76** `reveal` ends the session whatever its result: data is revealed at most once, and a call with a range outside the
transcript loses the session. -/
theorem C76_reveal_once (c : SdkProverConfig) (calls : List PCall) (n m : Nat) (hnm : n < m) (r : Reveal)
    (commit : Option Commit) (order : List CommitEntry → List CommitEntry) (e : ProveConfig → Ext ProverOutput)
    (call' : PCall) (reply reply' : PReply)
    (h : (runProver c calls).2[n]? = some (.reveal r commit order e, reply))
    (h' : (runProver c calls).2[m]? = some (call', reply')) : ¬ reply'.succeeded := by
  unfold runProver at h h'
  refine runCalls_closed (Dead := PState.Dead) (Bad := fun r => ¬ r.succeeded) (fun s call hd => dead_step c s call hd)
    hnm ?_ h'
  rw [runCalls_after h]
  exact reveal_dead c _ r commit order e

/-- **C76** The calls in their order succeed when the protocol does, for a configuration that was accepted, has a valid name
and an online limit within the receive limit. -/
theorem C76_prover_succeeds (c : SdkProverConfig) (hv : c.validName = true)
    (hl : c.mode = .mpc → c.maxRecvDataOnline.getD 32 ≤ c.maxRecvData) (t : Transcript) (r : Reveal)
    (commit : Option Commit) (order : List CommitEntry → List CommitEntry) (cfg : ProveConfig)
    (hcfg : revealConfig t order r commit = .ok cfg) (out : ProverOutput) (o : RevealOutput)
    (ho : buildRevealOutput out = .ok o) :
    (runProver c [.setup (.done ()), (match c.mode with | .mpc => .sendMpc (.done t) | .proxy => .sendProxy (.done t)),
      .transcript, .reveal r commit order fun _ => .done out]).2.map (·.2) =
      [.ok, .ok, .transcript t, .output o] := by
  have hb : c.mode = .mpc → ∃ cc, c.commitConfig = .ok cc := by
    intro hm
    unfold SdkProverConfig.commitConfig MpcTlsConfigBuilder.build MpcTlsConfig.validate
    simp [Nat.not_lt.2 (hl hm)]
  cases hm : c.mode with
  | mpc =>
    obtain ⟨cc, hcc⟩ := hb hm
    simp [runProver, runCalls, proverCall, proverSetup, proverSend, proverReveal, hm, hcc, hv, hcfg, ho]
  | proxy => simp [runProver, runCalls, proverCall, proverSetup, proverSend, proverReveal, hm, hv, hcfg, ho]

/-- **C76** A receive limit below 32 bytes without an online limit passes `new` but no call on that prover ever succeeds: the
default online limit is 32.  (Disagreement: `new` only asks for a limit above zero.) -/
theorem C76_small_limit (c : SdkProverConfig) (hm : c.mode = .mpc) (hon : c.maxRecvDataOnline = none)
    (hr : c.maxRecvData < 32) (calls : List PCall) (n : Nat) (call : PCall) (reply : PReply)
    (h : (runProver c calls).2[n]? = some (call, reply)) : ¬ reply.succeeded := by
  have hcc : ∃ e, c.commitConfig = .error e := by
    unfold SdkProverConfig.commitConfig MpcTlsConfigBuilder.build MpcTlsConfig.validate
    simp [hon, hr]
  obtain ⟨e, hcc⟩ := hcc
  unfold runProver at h
  have hinv := runCalls_inv (P := fun s _ => s.Dead ∨ s = .initialized) (step := proverCall c) (s0 := .initialized)
    (.inr rfl) (fun s log call hs => by
      rcases hs with hs | rfl
      · exact .inl (dead_step c s call hs).1
      · cases call with
        | transcript => exact .inr rfl
        | setup e => unfold proverCall proverSetup; simp only [hm, hcc]; exact .inl trivial
        | _ => exact .inl trivial) (calls.take n)
  obtain ⟨-, -, h2⟩ := runCalls_get h
  rw [h2]
  rcases hinv with hs | hs
  · exact (dead_step c _ call hs).2
  · rw [hs]
    cases call with
    | setup e => unfold proverCall proverSetup; simp only [hm, hcc]; exact id
    | _ => exact id

/-- Such a configuration is accepted by `new`. -/
example : SdkProverConfig.accepted
    ⟨['a'], true, .mpc, 4096, none, none, 31, none, none, .latency⟩ = true := by decide

/-- **C76** After completion, any further call makes `is_complete` false again. -/
theorem C76_complete_lost (c : SdkProverConfig) (s : PState) (hs : s.isComplete = true) (call : PCall)
    (ht : call.takes = true) : (proverCall c s call).1.isComplete = false := by
  cases s with
  | complete => cases call <;> first | rfl | cases ht
  | _ => cases hs

/-! ## The verifier -/

theorem refuses_iff (l : SdkVerifierConfig) (c : MpcTlsConfig) : l.refuses c = false ↔ WithinLimits l c := by
  have ho : ∀ a b : Option Nat, optionGt a b = false ↔ ∀ n, a = some n → ∃ k, b = some k ∧ n ≤ k := by
    intro a b
    cases a with
    | none => simp [optionGt]
    | some n => cases b <;> simp [optionGt]
  unfold SdkVerifierConfig.refuses
  constructor
  · intro h
    by_cases h1 : c.maxSentData > l.maxSentData
    · simp [h1] at h
    by_cases h2 : c.maxRecvData > l.maxRecvData
    · simp [h1, h2] at h
    cases h3 : optionGt c.maxSentRecords l.maxSentRecords with
    | true => simp [h1, h2, h3] at h
    | false =>
      cases h4 : optionGt c.maxRecvRecordsOnline l.maxRecvRecordsOnline with
      | true => simp [h1, h2, h3, h4] at h
      | false => exact ⟨by omega, by omega, (ho _ _).1 h3, (ho _ _).1 h4⟩
  · rintro ⟨h1, h2, h3, h4⟩
    rw [if_neg (by omega), if_neg (by omega), (ho _ _).2 h3, (ho _ _).2 h4]
    simp

/-- What a state says about the calls made. -/
def VInv (l : SdkVerifierConfig) (s : VState) (log : List (VCall × VReply)) : Prop :=
  match s with
  | .initialized => log.filter (·.1.takes) = []
  | .connected => ∃ e, log.filter (·.1.takes) = [(.connect e, .ok)]
  | .acceptedMpc => ∃ e c, WithinLimits l c ∧
      log.filter (·.1.takes) = [(.connect e, .ok), (.setup (.done (.mpc c (.done ()))), .ok)]
  | .acceptedProxy socket => ∃ e name,
      log.filter (·.1.takes) = [(.connect e, .ok), (.setup (.done (.proxy name (.done ()))), .proxyFor name)] ∧
      (socket = true → (VCall.setServerSocket, VReply.ok) ∈ log)
  | .committed => ∃ e p r e', Agreed l p r ∧
      log.filter (·.1.takes) = [(.connect e, .ok), (.setup (.done p), r), (.run e', .ok)] ∧
      (∀ name, r = .proxyFor name → (VCall.setServerSocket, VReply.ok) ∈ log)
  | .complete => True
  | .error => True

theorem vinv_step (l : SdkVerifierConfig) (s : VState) (log : List (VCall × VReply)) (call : VCall) (h : VInv l s log) :
    VInv l (verifierCall l s call).1 (log ++ [(call, (verifierCall l s call).2)]) := by
  cases call with
  | connect e =>
    unfold verifierCall
    cases s <;> try exact trivial
    cases e with
    | done a => exact ⟨_, by rw [List.filter_append, h]; rfl⟩
    | failed => exact trivial
    | dropped => exact trivial
  | setup e =>
    unfold verifierCall verifierSetup
    cases s <;> try exact trivial
    simp only
    obtain ⟨e0, h⟩ := h
    cases e with
    | failed => exact trivial
    | dropped => exact trivial
    | done p =>
      cases p with
      | mpc c accept =>
        simp only
        cases hr : l.refuses c with
        | true => exact trivial
        | false =>
          cases accept with
          | done a => exact ⟨e0, c, (refuses_iff l c).1 hr, by rw [List.filter_append, h]; rfl⟩
          | failed => exact trivial
          | dropped => exact trivial
      | proxy name accept =>
        cases accept with
        | done a => exact ⟨e0, name, by rw [List.filter_append, h]; rfl, by simp⟩
        | failed => exact trivial
        | dropped => exact trivial
  | setServerSocket =>
    unfold verifierCall
    cases s with
    | acceptedProxy socket =>
      obtain ⟨e, name, h1, h2⟩ := h
      exact ⟨e, name, by rw [List.filter_append, h1]; rfl, by simp⟩
    | initialized => simpa [VInv, VCall.takes] using h
    | connected => simpa [VInv, VCall.takes] using h
    | acceptedMpc => simpa [VInv, VCall.takes] using h
    | committed =>
      obtain ⟨e, p, r, e', h1, h2, h3⟩ := h
      exact ⟨e, p, r, e', h1, by simpa [VCall.takes] using h2, fun name hn => List.mem_append_left _ (h3 name hn)⟩
    | complete => exact trivial
    | error => exact trivial
  | run e =>
    unfold verifierCall
    cases s with
    | acceptedMpc =>
      obtain ⟨e0, c, h1, h2⟩ := h
      cases e with
      | done a =>
        exact ⟨e0, _, .ok, _, .inl ⟨c, rfl, rfl, h1⟩, by rw [List.filter_append, h2]; rfl, fun name hn => by cases hn⟩
      | failed => exact trivial
      | dropped => exact trivial
    | acceptedProxy socket =>
      cases socket with
      | false => exact trivial
      | true =>
        obtain ⟨e0, name, h1, h2⟩ := h
        cases e with
        | done a =>
          exact ⟨e0, _, .proxyFor name, _, .inr ⟨name, rfl, rfl⟩, by rw [List.filter_append, h1]; rfl,
            fun _ _ => List.mem_append_left _ (h2 rfl)⟩
        | failed => exact trivial
        | dropped => exact trivial
    | _ => exact trivial
  | verify info e =>
    unfold verifierCall verifierVerify
    cases s <;> try exact trivial
    cases e <;> exact trivial

/-- **C76** A verifier's call succeeds only in its place, after the calls it needs, each successful; in proxy mode the server
socket was given before `run`.  With C75: a proposal accepted on the way was within the limits. -/
theorem C76_verifier_order (l : SdkVerifierConfig) (calls : List VCall) (n : Nat) (call : VCall) (reply : VReply)
    (h : (runVerifier l calls).2[n]? = some (call, reply)) (hs : reply.succeeded) :
    VerifierReady l call ((runVerifier l calls).2.take n) := by
  unfold runVerifier at h ⊢
  obtain ⟨h1, -, h2⟩ := runCalls_get h
  rw [h1]
  have hinv := runCalls_inv (P := VInv l) (step := verifierCall l) (s0 := .initialized) rfl
    (fun s log call => vinv_step l s log call) (calls.take n)
  generalize (runCalls (verifierCall l) .initialized (calls.take n)).1 = s at h2 hinv
  generalize (runCalls (verifierCall l) .initialized (calls.take n)).2 = log at hinv
  subst h2
  cases call with
  | connect e => cases s <;> first | exact hs.elim | exact hinv
  | setup e => cases s <;> first | exact hs.elim | exact hinv
  | setServerSocket =>
    cases s with
    | acceptedProxy socket =>
      obtain ⟨e, name, h1, -⟩ := hinv
      exact ⟨e, name, h1⟩
    | _ => exact hs.elim
  | run e =>
    cases s with
    | acceptedMpc =>
      obtain ⟨e0, c, h1, h2⟩ := hinv
      exact ⟨e0, _, .ok, .inl ⟨c, rfl, rfl, h1⟩, h2, fun name hn => by cases hn⟩
    | acceptedProxy socket =>
      cases socket with
      | false => exact hs.elim
      | true =>
        obtain ⟨e0, name, h1, h2⟩ := hinv
        exact ⟨e0, _, .proxyFor name, .inr ⟨name, rfl, rfl⟩, h1, fun _ _ => h2 rfl⟩
    | _ => exact hs.elim
  | verify info e =>
    cases s with
    | committed => exact hinv
    | _ => exact hs.elim

/-- The verifier has no session any more. -/
def VState.Dead : VState → Prop
  | .complete | .error => True
  | _ => False

theorem vdead_step (l : SdkVerifierConfig) (s : VState) (call : VCall) (h : s.Dead) :
    (verifierCall l s call).1.Dead ∧ ¬ (verifierCall l s call).2.succeeded := by
  cases s <;> first | exact h.elim | (cases call <;> exact ⟨trivial, id⟩)

theorem vfailed_dead (l : SdkVerifierConfig) (s : VState) (call : VCall) (ht : call.takes = true)
    (hf : ¬ (verifierCall l s call).2.succeeded) : (verifierCall l s call).1.Dead := by
  cases call with
  | connect e =>
    cases s <;> try exact trivial
    cases e <;> first | exact trivial | exact (hf trivial).elim
  | setup e =>
    unfold verifierCall verifierSetup at hf ⊢
    cases s <;> try exact trivial
    cases e with
    | failed => exact trivial
    | dropped => exact trivial
    | done p =>
      cases p with
      | mpc c accept =>
        simp only at hf ⊢
        cases hr : l.refuses c with
        | true => exact trivial
        | false => rw [hr] at hf; cases accept <;> first | exact trivial | exact (hf trivial).elim
      | proxy name accept => cases accept <;> first | exact trivial | exact (hf trivial).elim
  | setServerSocket => cases ht
  | run e =>
    cases s with
    | acceptedMpc => cases e <;> first | exact trivial | exact (hf trivial).elim
    | acceptedProxy socket =>
      cases socket with
      | false => exact trivial
      | true => cases e <;> first | exact trivial | exact (hf trivial).elim
    | _ => exact trivial
  | verify info e =>
    cases s <;> try exact trivial
    cases e <;> exact trivial

/-- **C76** The same for the verifier: a failed or abandoned call ends the session. -/
theorem C76_verifier_failure_final (l : SdkVerifierConfig) (calls : List VCall) (n m : Nat) (hnm : n < m)
    (call call' : VCall) (reply reply' : VReply) (h : (runVerifier l calls).2[n]? = some (call, reply))
    (ht : call.takes = true) (hf : ¬ reply.succeeded) (h' : (runVerifier l calls).2[m]? = some (call', reply')) :
    ¬ reply'.succeeded := by
  unfold runVerifier at h h'
  refine runCalls_closed (Dead := VState.Dead) (Bad := fun r => ¬ r.succeeded) (fun s call hd => vdead_step l s call hd)
    hnm ?_ h'
  rw [runCalls_after h]
  obtain ⟨-, -, h2⟩ := runCalls_get h
  exact vfailed_dead l _ call ht (h2 ▸ hf)

/-- **C75** A proposal is accepted exactly when it is within the limits. -/
theorem C75_accepts_iff (l : SdkVerifierConfig) (c : MpcTlsConfig) :
    (verifierCall l .connected (.setup (.done (.mpc c (.done ()))))).2.succeeded ↔ WithinLimits l c := by
  unfold verifierCall verifierSetup
  simp only
  rw [← refuses_iff]
  cases l.refuses c <;> simp [VReply.succeeded]

/-- **C75** What acceptance means for the protocol that is then run (limits small enough not to wrap): the byte limits of the
protocol are those of the verifier plus the 32 bytes of the handshake, and the record counts are within the verifier's, or,
if the prover left them out, what the byte limits give. -/
theorem C75_protocol_bounded (l : SdkVerifierConfig) (c : MpcTlsConfig) (h : WithinLimits l c) (p : ProtoConfig)
    (hp : c.toProto = some p) (hs : l.maxSentData + 32 < 2 ^ 64) (hr : l.maxRecvData + 32 < 2 ^ 64) :
    p.maxSent ≤ l.maxSentData + 32 ∧ p.maxRecv ≤ l.maxRecvData + 32 ∧ p.maxRecvOnline ≤ l.maxRecvData + 32 ∧
    (p.maxSentRecords ≤ 11 + l.maxSentData / 4096 ∨ ∃ k, l.maxSentRecords = some k ∧ p.maxSentRecords ≤ k) ∧
    (p.maxRecvRecordsOnline ≤ 11 + l.maxRecvData / 4096 ∨
      ∃ k, l.maxRecvRecordsOnline = some k ∧ p.maxRecvRecordsOnline ≤ k) := by
  obtain ⟨h1, h2, h3, h4⟩ := h
  unfold MpcTlsConfig.toProto protoBuild at hp
  simp only at hp
  split at hp
  · cases hp
  · rename_i hle
    have hp := Option.some.inj hp
    have f1 : p.maxSent = usizeAdd 32 c.maxSentData := by rw [← hp]
    have f2 : p.maxRecvOnline = usizeAdd c.maxRecvDataOnline 32 := by rw [← hp]
    have f3 : p.maxRecv = usizeAdd c.maxRecvData 32 := by rw [← hp]
    have f4 : p.maxSentRecords = c.maxSentRecords.getD
        (usizeAdd 2 (defaultRecordCount (usizeAdd 32 c.maxSentData))) := by rw [← hp]
    have f5 : p.maxRecvRecordsOnline = c.maxRecvRecordsOnline.getD
        (usizeAdd 2 (defaultRecordCount (usizeAdd c.maxRecvDataOnline 32))) := by rw [← hp]
    clear hp
    rw [usizeAdd_eq (by omega)] at f1 f2 f3
    have hd : ∀ n, n < 2 ^ 64 → usizeAdd 2 (defaultRecordCount n) = 10 + (n - 4096 + 4095) / 4096 := by
      intro n hn
      obtain ⟨q, hq⟩ : ∃ q, q = (n - 4096 + 4095) / 4096 := ⟨_, rfl⟩
      unfold defaultRecordCount
      rw [← hq, usizeAdd_eq (a := 8) (by omega), usizeAdd_eq (by omega)]
      omega
    refine ⟨by omega, by omega, by omega, ?_, ?_⟩
    · cases hn : c.maxSentRecords with
      | none =>
        rw [hn, Option.getD_none, usizeAdd_eq (a := 32) (by omega), hd _ (by omega)] at f4
        left; omega
      | some n =>
        rw [hn, Option.getD_some] at f4
        obtain ⟨k, hk, hle⟩ := h3 n hn
        exact .inr ⟨k, hk, by omega⟩
    · cases hn : c.maxRecvRecordsOnline with
      | none =>
        rw [hn, Option.getD_none, usizeAdd_eq (b := 32) (by omega), hd _ (by omega)] at f5
        left; omega
      | some n =>
        rw [hn, Option.getD_some] at f5
        obtain ⟨k, hk, hle⟩ := h4 n hn
        exact .inr ⟨k, hk, by omega⟩

/-- **C75** A verifier's record limit does not bind a prover that leaves its own count out: with a limit of one record, a
session of eleven is accepted.  (Disagreement with the meaning of the limit.) -/
theorem C75_record_limit_bypassed : ∃ (l : SdkVerifierConfig) (c : MpcTlsConfig) (p : ProtoConfig),
    l.maxSentRecords = some 1 ∧ (verifierCall l .connected (.setup (.done (.mpc c (.done ()))))).2.succeeded ∧
    c.toProto = some p ∧ p.maxSentRecords = 11 :=
  ⟨⟨4096, 16384, some 1, none⟩, ⟨4096, none, 32, 16384, none, true, .latency⟩, _, rfl, trivial, rfl, by decide⟩

/-- **C75** A verifier without a record limit refuses every prover that states a count, however small.  (Disagreement: `None` reads
as "no limit".) -/
theorem C75_no_limit_refuses (l : SdkVerifierConfig) (c : MpcTlsConfig) (hl : l.maxSentRecords = none) (n : Nat)
    (hc : c.maxSentRecords = some n) (accept : Ext Unit) :
    ¬ (verifierCall l .connected (.setup (.done (.mpc c accept)))).2.succeeded := by
  unfold verifierCall verifierSetup
  simp only
  have : l.refuses c = true := by
    cases h : l.refuses c with
    | true => rfl
    | false =>
      obtain ⟨k, hk, -⟩ := ((refuses_iff l c).1 h).sentRecords n hc
      rw [hl] at hk; cases hk
  rw [this]
  exact id

/-- **C75** The time and version in the output are those of the TLS transcript, the lengths are those of the application
data, for totals below 4 GiB, and the name, the bytes and the ranges are those that the protocol gave. -/
theorem C75_lengths (l : SdkVerifierConfig) (calls : List VCall) (n : Nat) (info : SessionInfo)
    (e : Ext SessionOutput) (o : SdkVerifierOutput)
    (h : (runVerifier l calls).2[n]? = some (.verify info e, .output o))
    (hs : ((info.sent.filter (·.1)).map (·.2)).sum < 2 ^ 32) (hr : ((info.recv.filter (·.1)).map (·.2)).sum < 2 ^ 32) :
    o.connection = ⟨info.time, info.version, ((info.sent.filter (·.1)).map (·.2)).sum,
      ((info.recv.filter (·.1)).map (·.2)).sum⟩ ∧
    ∃ so, e = .done so ∧ o.serverName = so.serverName ∧
      o.transcript = so.transcript.map fun t => ⟨t.sent, t.sentAuthed.ranges, t.received, t.receivedAuthed.ranges⟩ := by
  unfold runVerifier at h
  obtain ⟨-, -, h2⟩ := runCalls_get h
  generalize (runCalls (verifierCall l) .initialized (calls.take n)).1 = s at h2
  unfold verifierCall verifierVerify at h2
  cases s with
  | committed =>
    cases e with
    | done so =>
      cases h2
      refine ⟨?_, so, rfl, rfl, rfl⟩
      simp only [appDataLength, Nat.mod_eq_of_lt hs, Nat.mod_eq_of_lt hr]
    | failed => cases h2
    | dropped => cases h2
  | _ => cases h2

/-- A complete session, so that the hypotheses of the theorems above are met. -/
example : ((runVerifier ⟨4096, 16384, none, none⟩
    [.connect (.done ()), .setup (.done (.proxy ['a'] (.done ()))), .setServerSocket, .run (.done ()),
      .verify ⟨3, .v12, [(true, 5), (false, 7)], [(true, 9)]⟩ (.done ⟨some ['a'], none⟩)]).2.map (fun x => match x.2 with
    | .ok => "ok" | .proxyFor _ => "proxy" | .output _ => "output" | _ => "failed")) =
    ["ok", "proxy", "ok", "ok", "output"] := by decide +kernel

/-- And one in which a call at the wrong time ends the session. -/
example : ((runVerifier ⟨4096, 16384, none, none⟩
    [.connect (.done ()), .run (.done ()), .setup (.done (.proxy ['a'] (.done ())))]).2.map (fun x => match x.2 with
    | .ok => "ok" | .proxyFor _ => "proxy" | .output _ => "output" | _ => "failed")) =
    ["ok", "failed", "failed"] := by decide +kernel

end Tlsn.Sdk
