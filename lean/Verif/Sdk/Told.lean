import Verif.Sdk.Machine
import Verif.Protocol.ErrorsProps

/-!
# What a program in JavaScript is told

The errors of crates/sdk-core and crates/wasm are texts: the kind of the SDK's error and the text of the library's
error.  The setup of the SDK's verifier gives the prover a reason when it refuses a configuration.
-/

namespace Tlsn.Sdk

open Tlsn.Protocol (Sent Received Response CommitMsg TlsCommitConfig SetupFailure Version proverCommitApi
  verifierCommitApi verifierAcceptApi verifierRejectApi commitMsg)

/-- crates/sdk-core/src/error.rs:18-33 `ErrorKind`, all of it. -/
inductive JsErrorKind where
  | invalidState
  | config
  | io
  | protocol
  | http
  | handler
  | internal
  deriving DecidableEq, Repr

/-- crates/sdk-core/src/error.rs:18-33: the derived `Debug`. -/
def JsErrorKind.name : JsErrorKind → String
  | .invalidState => "InvalidState"
  | .config => "Config"
  | .io => "Io"
  | .protocol => "Protocol"
  | .http => "Http"
  | .handler => "Handler"
  | .internal => "Internal"

/-- crates/sdk-core/src/error.rs:98-102 `Display`; the text of the `JsError` (crates/wasm/src/prover/mod.rs:69, 148 and
crates/wasm/src/verifier/mod.rs:60).  The source is not shown. -/
def jsText (k : JsErrorKind) (message : String) : String := k.name ++ ": " ++ message

/-- crates/sdk-core/src/verifier.rs:138-151: the reason for which a proposed configuration is refused. -/
def SdkVerifierConfig.refusal (l : SdkVerifierConfig) (c : MpcTlsConfig) : Option String :=
  if c.maxSentData > l.maxSentData then some "max_sent_data is too large"
  else if c.maxRecvData > l.maxRecvData then some "max_recv_data is too large"
  else if optionGt c.maxSentRecords l.maxSentRecords then some "max_sent_records is too large"
  else if optionGt c.maxRecvRecordsOnline l.maxRecvRecordsOnline then some "max_recv_records_online is too large"
  else none

/-- The outcomes of the messages and of the setup during `setup` of the verifier: the answer to another version, the
decision, the setup. -/
structure SetupIo where
  mismatch : Sent
  decision : Sent
  setup : Option SetupFailure

/-- crates/sdk-core/src/verifier.rs:121-183 `setup` in the connected state with crates/wasm/src/verifier/mod.rs:56-61, and the
answer that is sent.  The error is the text that JavaScript gets. -/
def jsVerifierSetup (sv : Version → String) (own : Version) (l : SdkVerifierConfig)
    (msg : Received (CommitMsg MpcTlsConfig Text)) (io : SetupIo) :
    Outcome String (Option Text) × Option Response :=
  match verifierCommitApi sv own msg io.mismatch with
  | (.panic, r) => (.panic, r)
  | (.err e, r) => (.err (jsText .protocol e.display), r)
  | (.ok (.mpc c), _) =>
    match l.refusal c with
    | some m =>
      match verifierRejectApi (some m) io.decision with
      | (.panic, r) => (.panic, r)
      | (.err e, r) => (.err (jsText .protocol e.display), r)
      | (.ok (), r) => (.err (jsText .protocol "protocol configuration rejected"), r)
    | none =>
      match verifierAcceptApi (.mpc c : TlsCommitConfig MpcTlsConfig Text) io.decision io.setup with
      | (.panic, r) => (.panic, r)
      | (.err e, r) => (.err (jsText .protocol e.display), r)
      | (.ok _, r) => (.ok none, r)
  | (.ok (.proxy name), _) =>
    match verifierAcceptApi (.proxy name : TlsCommitConfig MpcTlsConfig Text) io.decision io.setup with
    | (.panic, r) => (.panic, r)
    | (.err e, r) => (.err (jsText .protocol e.display), r)
    | (.ok _, r) => (.ok (some name), r)

/-- crates/sdk-core/src/prover.rs:135-138 and 166-169 with crates/wasm/src/prover/mod.rs:66-69: the end of `setup` of the prover, for
the configuration that was built. -/
def jsProverSetup (config : TlsCommitConfig MpcTlsConfig Text) (sent : Sent) (answer : Received Response)
    (setup : Option SetupFailure) : Outcome String Unit :=
  match proverCommitApi config sent answer setup with
  | .ok _ => .ok ()
  | .err e => .err (jsText .protocol e.display)
  | .panic => .panic

/-- crates/sdk-core/src/prover.rs:425-428 with crates/wasm/src/prover/mod.rs:144-148: the error of `reveal` when the proof fails. -/
def jsRevealError (e : Protocol.Error) : String := jsText .protocol e.display

/-! ## Specification -/

/-- The limits of the verifier, in the order in which they are read, with whether the proposal exceeds them. -/
def limits (l : SdkVerifierConfig) (c : MpcTlsConfig) : List (String × Prop) :=
  [("max_sent_data", c.maxSentData > l.maxSentData),
   ("max_recv_data", c.maxRecvData > l.maxRecvData),
   ("max_sent_records", ∃ n, c.maxSentRecords = some n ∧ ∀ m, l.maxSentRecords = some m → n > m),
   ("max_recv_records_online", ∃ n, c.maxRecvRecordsOnline = some n ∧ ∀ m, l.maxRecvRecordsOnline = some m → n > m)]

/-- The name of the first limit that is exceeded. -/
def FirstExceeded (l : SdkVerifierConfig) (c : MpcTlsConfig) (name : String) : Prop :=
  ∃ before p after, limits l c = before ++ (name, p) :: after ∧ p ∧ ∀ q ∈ before, ¬ q.2

/-- The proposal is within the limits. -/
def Within (l : SdkVerifierConfig) (c : MpcTlsConfig) : Prop := ∀ q ∈ limits l c, ¬ q.2

/-! ## Proofs -/

theorem optionGt_iff (a b : Option Nat) : optionGt a b = true ↔ ∃ n, a = some n ∧ ∀ m, b = some m → n > m := by
  cases a <;> cases b <;> simp [optionGt]

/-- The reason is given exactly if the state machine of `Verif/Sdk/Machine.lean` refuses. -/
theorem refusal_isSome (l : SdkVerifierConfig) (c : MpcTlsConfig) : (l.refusal c).isSome = l.refuses c := by
  unfold SdkVerifierConfig.refusal SdkVerifierConfig.refuses
  repeat' split
  all_goals rfl

theorem refusal_none_iff (l : SdkVerifierConfig) (c : MpcTlsConfig) : l.refusal c = none ↔ Within l c := by
  unfold SdkVerifierConfig.refusal Within limits
  simp only [List.mem_cons, List.not_mem_nil, or_false, forall_eq_or_imp, forall_eq, ← optionGt_iff]
  repeat' split
  all_goals simp_all

theorem refusal_first {l : SdkVerifierConfig} {c : MpcTlsConfig} {m : String} (h : l.refusal c = some m) :
    ∃ name, FirstExceeded l c name ∧ m = name ++ " is too large" := by
  unfold SdkVerifierConfig.refusal at h
  split at h
  · rename_i h1
    cases h
    exact ⟨"max_sent_data", ⟨[], _, _, rfl, h1, by simp⟩, by decide +kernel⟩
  rename_i h1
  split at h
  · rename_i h2
    cases h
    exact ⟨"max_recv_data", ⟨[_], _, _, rfl, h2, by simpa using h1⟩, by decide +kernel⟩
  rename_i h2
  split at h
  · rename_i h3
    cases h
    exact ⟨"max_sent_records", ⟨[_, _], _, _, rfl, (optionGt_iff _ _).1 h3, by
      simp only [List.mem_cons, List.not_mem_nil, or_false, forall_eq_or_imp, forall_eq]
      exact ⟨h1, h2⟩⟩, by decide +kernel⟩
  rename_i h3
  split at h
  · rename_i h4
    cases h
    exact ⟨"max_recv_records_online", ⟨[_, _, _], _, _, rfl, (optionGt_iff _ _).1 h4, by
      simp only [List.mem_cons, List.not_mem_nil, or_false, forall_eq_or_imp, forall_eq, ← optionGt_iff]
      exact ⟨h1, h2, h3⟩⟩, by decide +kernel⟩
  · cases h

theorem reason_text {a b m : String} (h : a = "Protocol" ++ ": " ++ b) : "Protocol" ++ ": " ++ (b ++ m) = a ++ m := by
  subst h
  simp only [String.append_assoc]

theorem js_rejected (config : TlsCommitConfig MpcTlsConfig Text) (setup : Option SetupFailure) (m : String) :
    jsProverSetup config none (.ok (.rejected (some m))) setup =
      .err ("Protocol: user error: commitment protocol rejected by verifier caused by: " ++ m) := by
  obtain ⟨e, resp, hr, hp, _, ht⟩ := Protocol.C137_commit_reason config setup (some m)
  simp only [verifierRejectApi, Prod.mk.injEq, true_and, Option.some.injEq] at hr
  subst hr
  unfold jsProverSetup
  rw [hp]
  dsimp only
  rw [ht]
  exact congrArg Outcome.err (reason_text (b := "user error: commitment protocol rejected by verifier caused by: ")
    (by decide +kernel))

theorem verifier_same_version (sv : Version → String) (own : Version) (config : TlsCommitConfig MpcTlsConfig Text)
    (s : Sent) : verifierCommitApi sv own (.ok (commitMsg own config)) s = (.ok config, none) := by
  simp [verifierCommitApi, commitMsg]

/-- **C138**: if a proposed configuration is above a limit of the verifier, the program of the prover is told the name
of the first such limit, and the program of the verifier that it refused. -/
theorem C138_told (sv : Version → String) (own : Version) (l : SdkVerifierConfig) (c : MpcTlsConfig) (io : SetupIo)
    (setupP : Option SetupFailure) (hio : io.decision = none) (h : ¬ Within l c) :
    ∃ name resp, FirstExceeded l c name ∧
      jsVerifierSetup sv own l (.ok (commitMsg own (.mpc c))) io =
        (.err "Protocol: protocol configuration rejected", some resp) ∧
      jsProverSetup (.mpc c) none (.ok resp) setupP =
        .err ("Protocol: user error: commitment protocol rejected by verifier caused by: " ++ (name ++ " is too large")) := by
  obtain ⟨m, hm⟩ := Option.ne_none_iff_exists'.1 (fun h' => h ((refusal_none_iff l c).1 h'))
  obtain ⟨name, hf, rfl⟩ := refusal_first hm
  refine ⟨name, .rejected (some (name ++ " is too large")), hf, ?_, js_rejected _ _ _⟩
  unfold jsVerifierSetup
  rw [verifier_same_version, hio]
  dsimp only
  rw [hm]
  simp only [verifierRejectApi]
  exact congrArg (fun t => (Outcome.err t, _)) (show jsText .protocol "protocol configuration rejected" = _ by decide +kernel)

/-- **C138**: within the limits, and when the setup works, both programs go on. -/
theorem C138_accepted (sv : Version → String) (own : Version) (l : SdkVerifierConfig) (c : MpcTlsConfig) (io : SetupIo)
    (hio : io.decision = none ∧ io.setup = none) (h : Within l c) :
    ∃ resp, jsVerifierSetup sv own l (.ok (commitMsg own (.mpc c))) io = (.ok none, some resp) ∧
      jsProverSetup (.mpc c) none (.ok resp) none = .ok () := by
  refine ⟨.ok, ?_, rfl⟩
  unfold jsVerifierSetup
  rw [verifier_same_version, hio.1, hio.2]
  dsimp only
  rw [(refusal_none_iff l c).2 h]
  rfl

theorem append_prefix {a b x y : String} (h : a ++ x = b ++ y) (hl : a.toList.length ≤ b.toList.length) :
    a.toList = b.toList.take a.toList.length := by
  have := congrArg (fun s => s.toList.take a.toList.length) h
  simp only [String.toList_append] at this
  rwa [List.take_left, List.take_append_of_le_length hl] at this

theorem display_prefix (e : Protocol.Error) : ∃ t, e.display = e.kind.text ++ t :=
  ⟨_, by unfold Protocol.Error.display; rw [String.append_assoc]⟩

theorem js_prefix (e : Protocol.Error) : ∃ t, jsText .protocol e.display = "Protocol" ++ ": " ++ e.kind.text ++ t := by
  obtain ⟨t, ht⟩ := display_prefix e
  exact ⟨t, by rw [jsText, ht, JsErrorKind.name]; simp only [String.append_assoc]⟩

theorem js_user_iff (e : Protocol.Error) :
    (∃ t, jsText .protocol e.display = "Protocol: user error" ++ t) ↔ e.isUser = true := by
  obtain ⟨t, ht⟩ := js_prefix e
  rw [ht]
  have hu : e.isUser = true ↔ e.kind = .user := by
    unfold Protocol.Error.isUser
    cases e.kind <;> simp
  rw [hu]
  constructor
  · rintro ⟨u, hu⟩
    cases hk : e.kind with
    | user => rfl
    | io => rw [hk] at hu; exact absurd (append_prefix hu (by decide +kernel)) (by decide +kernel)
    | internal => rw [hk] at hu; exact absurd (append_prefix hu.symm (by decide +kernel)) (by decide +kernel)
    | config => rw [hk] at hu; exact absurd (append_prefix hu.symm (by decide +kernel)) (by decide +kernel)
  · intro hk
    refine ⟨t, ?_⟩
    rw [hk]
    exact congrArg (· ++ t) (show "Protocol" ++ ": " ++ Protocol.ErrorKind.user.text = "Protocol: user error" by
      decide +kernel)

/-- **C138**: a program can tell from the text of a failed `setup` of the prover whether the verifier rejected. -/
theorem C138_setup_text (config : TlsCommitConfig MpcTlsConfig Text) (sent : Sent) (answer : Received Response)
    (setup : Option SetupFailure) (text : String) (h : jsProverSetup config sent answer setup = .err text) :
    (∃ t, text = "Protocol: user error" ++ t) ↔ sent = none ∧ ∃ reason, answer = .ok (.rejected reason) := by
  unfold jsProverSetup at h
  split at h
  · cases h
  · rename_i e he
    cases h
    rw [js_user_iff, (Protocol.C137_commit_prover config sent answer setup e he).user]
  · cases h

/-- **C138**: and from the text of a failed `reveal`; then the text ends with the reason of the verifier. -/
theorem C138_reveal_text (sh : Protocol.ShowError) (env : Protocol.Env) (name : ServerName) (hsd : HandshakeData)
    (data : Transcript) (vp : ZkVm) (config : ProveConfig) (blinders : Nat → Blinder) (io : Protocol.ProveIo)
    (e : Protocol.Error) (h : (Protocol.proveApi sh env name hsd data vp config blinders io).2 = .err e) :
    ((∃ t, jsRevealError e = "Protocol: user error" ++ t) ↔ io.sent = none ∧ ∃ r, io.answer = .ok (.rejected r)) ∧
    (∀ r, io.sent = none → io.answer = .ok (.rejected r) → jsRevealError e =
      "Protocol: user error: proving rejected by verifier caused by: " ++ r.getD "no reason provided") := by
  have hM := Protocol.C137_prove sh env name hsd data vp config blinders io e h
  refine ⟨by rw [jsRevealError, js_user_iff, hM.user], fun r hs ha => ?_⟩
  have hm : Protocol.proverMsg config name hsd data ≠ none := by
    intro hm
    unfold Protocol.proveApi at h
    rw [hm] at h
    cases h
  obtain ⟨e', he, _, ht⟩ := Protocol.C137_reason sh env name hsd data vp config blinders io r hm hs ha
  rw [he] at h
  cases h
  rw [jsRevealError, jsText, ht]
  exact reason_text (b := "user error: proving rejected by verifier caused by: ") (by decide +kernel)

/-- Example for `C138_told` and `C138_accepted`: a proposal above two limits and one within them. -/
example :
    let l : SdkVerifierConfig := ⟨4096, 16384, some 10, none⟩
    let c : MpcTlsConfig := ⟨4096, some 11, 32, 16385, none, true, .latency⟩
    let own : Version := ⟨0, 1, 0, "", ""⟩
    let v := jsVerifierSetup (fun _ => "") own l (.ok (commitMsg own (.mpc c))) ⟨none, none, none⟩
    v.2 = some (.rejected (some "max_recv_data is too large")) ∧
    jsProverSetup (.mpc c) none (.ok (.rejected (some "max_recv_data is too large"))) none =
      .err "Protocol: user error: commitment protocol rejected by verifier caused by: max_recv_data is too large" ∧
    (jsVerifierSetup (fun _ => "") own l (.ok (commitMsg own (.mpc { c with maxRecvData := 1, maxSentRecords := none })))
      ⟨none, none, none⟩) = (.ok none, some .ok) := by
  decide +kernel

/-- Example for `C138_setup_text`: a lost answer. -/
example : jsProverSetup (.proxy "example.com".toList) none (.error "eof") none =
    .err "Protocol: io error: commitment protocol failed to receive response caused by: eof" := by
  decide +kernel

end Tlsn.Sdk
