import Verif.Protocol.Errors
import Verif.Protocol.Props

/-! # What the kind of an error tells -/

namespace Tlsn.Protocol

/-- Specification.  What the kinds mean: `rejected` that the other party declined, `broken` that a message could not
be sent or received, `unusable` that the own configuration cannot be used. -/
structure Means (e : Error) (rejected broken unusable : Prop) : Prop where
  user : e.isUser = true ↔ rejected
  io : e.isIo = true ↔ broken
  config : e.isConfig = true ↔ unusable
  internal : e.isInternal = true ↔ ¬ rejected ∧ ¬ broken ∧ ¬ unusable

/-- Specification.  The channel fails during this call of the verifier. -/
def VApiCall.broken : VApiCall → Prop
  | .verify msg => ∃ t, msg = .error t
  | .accept sent _ => sent ≠ none
  | .reject _ sent => sent ≠ none

/-! ## Proving -/

theorem proverError_internal (sh : ShowError) (p : ProvingError) : (proverError sh p).kind = .internal := by
  cases p <;> rfl

theorem verifierError_internal (sh : ShowError) (p : ProvingError) : (verifierError sh p).kind = .internal := by
  cases p <;> rfl

theorem setup_internal (f : SetupFailure) : f.error.kind = .internal := by
  cases f <;> rfl

theorem means_user {e : Error} (h : e.kind = .user) {r b c : Prop} (hr : r) (hb : ¬ b) (hc : ¬ c) : Means e r b c := by
  constructor <;> simp [Error.isUser, Error.isIo, Error.isConfig, Error.isInternal, h, hr, hb, hc]

theorem means_io {e : Error} (h : e.kind = .io) {r b c : Prop} (hr : ¬ r) (hb : b) (hc : ¬ c) : Means e r b c := by
  constructor <;> simp [Error.isUser, Error.isIo, Error.isConfig, Error.isInternal, h, hr, hb, hc]

theorem means_config {e : Error} (h : e.kind = .config) {r b c : Prop} (hr : ¬ r) (hb : ¬ b) (hc : c) :
    Means e r b c := by
  constructor <;> simp [Error.isUser, Error.isIo, Error.isConfig, Error.isInternal, h, hr, hb, hc]

theorem means_internal {e : Error} (h : e.kind = .internal) {r b c : Prop} (hr : ¬ r) (hb : ¬ b) (hc : ¬ c) :
    Means e r b c := by
  constructor <;> simp [Error.isUser, Error.isIo, Error.isConfig, Error.isInternal, h, hr, hb, hc]

/-- **C137**: an error of `prove` is a user error exactly if the verifier answered with a rejection, an io error
exactly if the request or the answer was lost, an internal error if the proof failed, and never a config error. -/
theorem C137_prove (sh : ShowError) (env : Env) (name : ServerName) (hsd : HandshakeData) (data : Transcript)
    (vp : ZkVm) (config : ProveConfig) (blinders : Nat → Blinder) (io : ProveIo) (e : Error)
    (h : (proveApi sh env name hsd data vp config blinders io).2 = .err e) :
    Means e (io.sent = none ∧ ∃ reason, io.answer = .ok (.rejected reason))
      (io.sent ≠ none ∨ ∃ t, io.answer = .error t) False := by
  unfold proveApi at h
  obtain ⟨sent, answer, exec⟩ := io
  dsimp only at h ⊢
  split at h
  · cases h
  split at h
  · cases h
    exact means_io rfl (by simp) (by simp) (by simp)
  split at h
  · cases h
    exact means_io rfl (by simp) (by simp) (by simp)
  · cases h
    exact means_user rfl (by simp) (by simp) (by simp)
  split at h
  · cases h
    exact means_internal (proverError_internal _ _) (by simp) (by simp) (by simp)
  · cases h
  split at h
  · cases h
    exact means_internal rfl (by simp) (by simp) (by simp)
  · cases h

/-- **C137**: a rejected statement gives the prover's user an error that shows the reason given by the verifier's
user, and leaves the prover as it was. -/
theorem C137_reason (sh : ShowError) (env : Env) (name : ServerName) (hsd : HandshakeData) (data : Transcript)
    (vp : ZkVm) (config : ProveConfig) (blinders : Nat → Blinder) (io : ProveIo) (reason : Option String)
    (hm : proverMsg config name hsd data ≠ none) (hs : io.sent = none) (ha : io.answer = .ok (.rejected reason)) :
    ∃ e, proveApi sh env name hsd data vp config blinders io = (some vp, .err e) ∧ e.isUser = true ∧
      e.display = "user error: proving rejected by verifier caused by: " ++ reason.getD "no reason provided" := by
  obtain ⟨m, hm⟩ := Option.ne_none_iff_exists'.1 hm
  unfold proveApi
  rw [hm, hs, ha]
  refine ⟨_, rfl, rfl, ?_⟩
  cases reason <;> rfl

/-- The documentation of `msg` promises "a rejection message provided by a verifier"; the message is always the same
text, whatever the verifier said. -/
theorem C137_msg_is_not_the_reason (sh : ShowError) (env : Env) (name : ServerName) (hsd : HandshakeData)
    (data : Transcript) (vp : ZkVm) (config : ProveConfig) (blinders : Nat → Blinder) (io : ProveIo) (e : Error)
    (h : (proveApi sh env name hsd data vp config blinders io).2 = .err e) (hu : e.isUser = true) :
    e.msg = some "proving rejected by verifier" := by
  have hk := (C137_prove sh env name hsd data vp config blinders io e h).user.1 hu
  obtain ⟨hs, reason, ha⟩ := hk
  unfold proveApi at h
  rw [hs, ha] at h
  split at h
  · cases h
  · cases h
    rfl

/-! ## Verifying -/

theorem acceptResult_err {sh : ShowError} {exec : Sent} {r : Outcome ProvingError (ZkVm × VerifierOutput)} {e : Error}
    (h : (acceptResult sh exec r).2 = .err e) : e.kind = .internal := by
  unfold acceptResult at h
  split at h
  · cases h
  · split at h
    · split at h <;> cases h
      · rfl
      · exact verifierError_internal _ _
    · cases h
      exact verifierError_internal _ _
  · split at h <;> cases h
    rfl

/-- **C137**: an error of a verifier's `verify`, `accept` or `reject` is an io error exactly if the channel failed, a
config error exactly if its root store cannot be used, and otherwise internal; it is never a user error. -/
theorem C137_verify (sh : ShowError) (bad : String) (env : Env) (s : VState) (c : VApiCall) (e : Error)
    (h : (s.api sh bad env c).2.1 = some (.err e)) :
    Means e False c.broken (env.certs = none ∧ ∃ exec, c = .accept none exec) := by
  unfold VState.api at h
  split at h
  · cases h
  · cases h
    exact means_io rfl (by simp) (by simp [VApiCall.broken]) (by simp)
  · cases h
    exact means_io rfl (by simp) (by simp [VApiCall.broken]) (by simp)
  · split at h
    · rename_i hc
      cases h
      exact means_config rfl (by simp) (by simp [VApiCall.broken]) (by simp [hc])
    · rename_i hc
      dsimp only at h
      exact means_internal (acceptResult_err (Option.some.inj h)) (by simp) (by simp [VApiCall.broken]) (by simp [hc])
  · cases h
    exact means_io rfl (by simp) (by simp [VApiCall.broken]) (by simp)
  · cases h
  · cases h

/-- The documentation of `is_internal` says that the error comes from a bug; a prover that announces a transcript and
does not send it, whatever its request, makes the verifier return such an error. -/
theorem C137_internal_is_not_a_bug (sh : ShowError) (bad : String) (env : Env) (vm : ZkVm) (msg : ProveMsg)
    (hc : env.certs ≠ none) (hr : msg.request.reveal ≠ none) (ht : msg.transcript = none) :
    ∃ e, ((VState.verifying vm msg).api sh bad env (.accept none none)).2.1 = some (.err e) ∧ e.isInternal = true := by
  obtain ⟨certs, hc⟩ := Option.ne_none_iff_exists'.1 hc
  obtain ⟨rv, hr⟩ := Option.ne_none_iff_exists'.1 hr
  refine ⟨verifierError sh .missingTranscript, ?_, rfl⟩
  simp only [VState.api, hc, verifySession, chooseTranscript, hr, ht]
  rfl

/-! ## These are the calls of the protocol -/

/-- The call without the details of the failures. -/
def VApiCall.plain : VApiCall → VCall
  | .verify (.ok msg) => .verify (some msg)
  | .verify (.error _) => .verify none
  | .accept sent _ => .accept sent.isNone
  | .reject reason sent => .reject reason sent.isNone

/-- The outcome without the details of the failures. -/
def plainResult : Option (Outcome Error VOk) → VResult
  | none => .noSuchCall
  | some (.ok (.request r)) => .request r
  | some (.ok (.output o)) => .output o
  | some (.ok .rejected) => .rejected
  | some (.err _) => .failed
  | some .panic => .panicked

/-- The VM executes during this call. -/
def VApiCall.executes : VApiCall → Prop
  | .accept _ exec => exec = none
  | _ => True

/-- **C137**: apart from the errors, the calls are those of C95, whose outputs are true. -/
theorem C137_same_calls (sh : ShowError) (bad : String) (env : Env) (s : VState) (c : VApiCall) (hx : c.executes) :
    ((s.api sh bad env c).1, plainResult (s.api sh bad env c).2.1, (s.api sh bad env c).2.2) = s.call env c.plain := by
  cases s with
  | committed vm =>
    cases c with
    | verify m => cases m <;> rfl
    | accept sent exec => rfl
    | reject reason sent => rfl
  | gone =>
    cases c with
    | verify m => cases m <;> rfl
    | accept sent exec => rfl
    | reject reason sent => rfl
  | verifying vm msg =>
    cases c with
    | verify m => cases m <;> rfl
    | reject reason sent => cases sent <;> rfl
    | accept sent exec =>
      cases sent with
      | some t => rfl
      | none =>
        cases (show exec = none from hx)
        simp only [VState.api, VApiCall.plain, Option.isNone_none, VState.call]
        cases env.certs with
        | none => rfl
        | some certs =>
          dsimp only
          cases verifySession env.aes env.hc env.e certs vm env.keys env.tls msg.request msg.handshake
            msg.transcript with
          | ok p => rfl
          | err p => rfl
          | panic => rfl

/-- The prover's outcome without the details of the failures. -/
def plainProved : Outcome Error ProverOutput → PResult
  | .ok o => .proved o
  | .err ⟨.user, _, some t⟩ => .rejected (some t)
  | .err _ => .failed
  | .panic => .panicked

/-- **C137**: the prover's VM and output are those of C96. -/
theorem C137_same_prove (sh : ShowError) (env : Env) (name : ServerName) (hsd : HandshakeData) (data : Transcript)
    (vp : ZkVm) (config : ProveConfig) (blinders : Nat → Blinder) (resp : Response)
    (hm : proverMsg config name hsd data ≠ none) :
    (proveApi sh env name hsd data vp config blinders ⟨none, .ok resp, none⟩).1 =
      (proverRest env data vp config blinders (some resp)).1 ∧
    plainProved (proveApi sh env name hsd data vp config blinders ⟨none, .ok resp, none⟩).2 =
      match (proverRest env data vp config blinders (some resp)).2 with
      | .rejected reason => .rejected (some (reasonText reason))
      | r => r := by
  obtain ⟨m, hm⟩ := Option.ne_none_iff_exists'.1 hm
  unfold proveApi proverRest
  rw [hm]
  cases resp with
  | rejected reason => exact ⟨rfl, rfl⟩
  | ok =>
    dsimp only
    cases proveSession env.aes env.hc env.e blinders vp env.keys data env.tls config with
    | ok p => exact ⟨rfl, rfl⟩
    | panic => exact ⟨rfl, rfl⟩
    | err p => cases p <;> exact ⟨rfl, rfl⟩

/-- What the verifier's user does with a statement, over a channel that works. -/
def Round.apiAnswer (r : Round) (q : ProveRequest) (exec : Sent) : VApiCall :=
  match r.decide q with
  | none => .accept none exec
  | some reason => .reject reason none

/-- **C137**: over a channel that works, the prover's user gets a user error exactly if the verifier's user rejected
the statement, and it shows the reason. -/
theorem C137_round (sh : ShowError) (bad : String) (env : Env) (name : ServerName) (hsd : HandshakeData)
    (data : Transcript) (vp vm : ZkVm) (r : Round) (msg : ProveMsg) (execP execV : Sent) (resp : Response)
    (hm : proverMsg r.config name hsd data = some msg)
    (hv : (((VState.committed vm).api sh bad env (.verify (.ok msg))).1.api sh bad env
      (r.apiAnswer msg.request execV)).2.2 = some resp) (e : Error)
    (h : (proveApi sh env name hsd data vp r.config r.blinders ⟨none, .ok resp, execP⟩).2 = .err e) :
    e.isUser = true ↔ ∃ reason, r.decide msg.request = some reason ∧
      e.display = "user error: proving rejected by verifier caused by: " ++ reason.getD "no reason provided" := by
  have hresp : resp = match r.decide msg.request with | none => .ok | some reason => .rejected reason := by
    simp only [VState.api, Round.apiAnswer] at hv
    cases hd : r.decide msg.request with
    | none =>
      rw [hd] at hv
      dsimp only at hv
      cases hc : env.certs <;> rw [hc] at hv <;> exact (Option.some.inj hv).symm
    | some reason =>
      rw [hd] at hv
      exact (Option.some.inj hv).symm
  have hM := C137_prove sh env name hsd data vp r.config r.blinders ⟨none, .ok resp, execP⟩ e h
  rw [hM.user]
  constructor
  · rintro ⟨_, reason, ha⟩
    dsimp only at ha
    cases ha
    cases hd : r.decide msg.request with
    | none => rw [hd] at hresp; cases hresp
    | some q =>
      rw [hd] at hresp
      cases hresp
      obtain ⟨e', he, _, ht⟩ := C137_reason sh env name hsd data vp r.config r.blinders ⟨none, .ok (.rejected reason), execP⟩
        reason (by rw [hm]; simp) rfl rfl
      rw [he] at h
      cases h
      exact ⟨reason, rfl, ht⟩
  · rintro ⟨reason, hd, _⟩
    rw [hd] at hresp
    exact ⟨rfl, reason, by rw [hresp]⟩

/-! ## The start of the commitment protocol -/

/-- **C137**: the same for the prover's `commit`. -/
theorem C137_commit_prover {M P : Type} (config : TlsCommitConfig M P) (sent : Sent) (answer : Received Response)
    (setup : Option SetupFailure) (e : Error) (h : proverCommitApi config sent answer setup = .err e) :
    Means e (sent = none ∧ ∃ reason, answer = .ok (.rejected reason)) (sent ≠ none ∨ ∃ t, answer = .error t) False := by
  unfold proverCommitApi at h
  split at h
  · cases h
    exact means_io rfl (by simp) (by simp) (by simp)
  split at h
  · cases h
    exact means_io rfl (by simp) (by simp) (by simp)
  · cases h
    exact means_user rfl (by simp) (by simp) (by simp)
  split at h
  · cases h
    exact means_internal (setup_internal _) (by simp) (by simp) (by simp)
  · cases h

/-- **C137**: an error of the verifier's `commit` is a config error exactly if a message of another version came and
could be answered, and otherwise an io error. -/
theorem C137_commit_verifier {M P : Type} (sv : Version → String) (own : Version) (msg : Received (CommitMsg M P))
    (sent : Sent) (e : Error) (h : (verifierCommitApi sv own msg sent).1 = .err e) :
    Means e False ((∃ t, msg = .error t) ∨ sent ≠ none) (sent = none ∧ ∃ m, msg = .ok m ∧ m.version ≠ own) := by
  unfold verifierCommitApi at h
  split at h
  · cases h
    exact means_io rfl (by simp) (by simp) (by simp)
  · split at h
    · rename_i hne
      split at h
      · cases h
        exact means_io rfl (by simp) (by simp) (by simp)
      · cases h
        exact means_config rfl (by simp) (by simp) (by simp [hne])
    · cases h

/-- **C137**: the errors of `accept` and `reject` of a proposed configuration. -/
theorem C137_commit_decision {M P : Type} (config : TlsCommitConfig M P) (reason : Option String) (sent : Sent)
    (setup : Option SetupFailure) (e : Error)
    (h : (verifierAcceptApi config sent setup).1 = .err e ∨ (verifierRejectApi reason sent).1 = .err e) :
    Means e False (sent ≠ none) False := by
  rcases h with h | h
  · unfold verifierAcceptApi at h
    split at h
    · cases h
      exact means_io rfl (by simp) (by simp) (by simp)
    · split at h
      · cases h
        exact means_internal (setup_internal _) (by simp) (by simp) (by simp)
      · cases h
  · unfold verifierRejectApi at h
    split at h
    · cases h
      exact means_io rfl (by simp) (by simp) (by simp)
    · cases h

theorem text_config {k m l : String} (hl : l = k ++ (": " ++ m)) (x y z : String) :
    k ++ (": " ++ (m ++ x ++ y ++ z)) ++ "" = l ++ x ++ y ++ z := by
  subst hl
  simp only [String.append_assoc, String.append_empty]

theorem text_user {k m c l : String} (hl : l = k ++ (": " ++ m) ++ c) (n x y z : String) :
    k ++ (": " ++ m) ++ (c ++ (n ++ x ++ y ++ z)) = l ++ n ++ x ++ y ++ z := by
  subst hl
  simp only [String.append_assoc]

/-- **C137**: when the versions differ, both users are shown the same text, the verifier's as a config error and the
prover's as the reason of a rejection. -/
theorem C137_versions {M P : Type} (sv : Version → String) (vp vv : Version) (config : TlsCommitConfig M P)
    (setup : Option SetupFailure) (hne : vp ≠ vv) :
    ∃ ev ep resp, verifierCommitApi sv vv (.ok (commitMsg vp config)) none = (.err ev, some resp) ∧
      proverCommitApi config none (.ok resp) setup = .err ep ∧
      ev.display = "config error: prover version does not match with verifier: " ++ sv vp ++ " != " ++ sv vv ∧
      ep.display = "user error: commitment protocol rejected by verifier caused by: " ++
        "prover version does not match with verifier: " ++ sv vp ++ " != " ++ sv vv := by
  refine ⟨⟨.config, some (mismatchText sv vp vv), none⟩,
    ⟨.user, some "commitment protocol rejected by verifier", some (mismatchText sv vp vv)⟩,
    .rejected (some (mismatchText sv vp vv)),
    by simp only [verifierCommitApi, commitMsg, ne_eq, hne, not_false_eq_true, if_true], rfl, ?_, ?_⟩
  · exact text_config (k := "config error") (by decide +kernel) _ _ _
  · exact text_user (k := "user error") (by decide +kernel) _ _ _ _

/-- **C137**: a prover whose proposal is rejected is shown the reason. -/
theorem C137_commit_reason {M P : Type} (config : TlsCommitConfig M P) (setup : Option SetupFailure)
    (reason : Option String) :
    ∃ e resp, verifierRejectApi reason none = (.ok (), some resp) ∧
      proverCommitApi config none (.ok resp) setup = .err e ∧ e.isUser = true ∧
      e.display = "user error: commitment protocol rejected by verifier caused by: " ++
        reason.getD "no reason provided" := by
  refine ⟨_, _, rfl, rfl, rfl, ?_⟩
  cases reason <;> rfl

/-- **C137**: a call that succeeds had no failure to report: the messages came through, the other party agreed, and
the setup and the execution of the VM were complete. -/
theorem C137_success {M P : Type} (sh : ShowError) (bad : String) (env : Env) (name : ServerName) (hsd : HandshakeData)
    (data : Transcript) (vp : ZkVm) (pc : ProveConfig) (blinders : Nat → Blinder) (io : ProveIo) (s : VState)
    (c : VApiCall) (config : TlsCommitConfig M P) (sent : Sent) (answer : Received Response)
    (setup : Option SetupFailure) :
    (∀ out, (proveApi sh env name hsd data vp pc blinders io).2 = .ok out →
      io.sent = none ∧ io.answer = .ok .ok ∧ io.exec = none) ∧
    (∀ out, (s.api sh bad env c).2.1 = some (.ok (.output out)) → c = .accept none none) ∧
    (∀ c', proverCommitApi config sent answer setup = .ok c' →
      c' = config ∧ sent = none ∧ answer = .ok .ok ∧ setup = none) ∧
    (∀ c', (verifierAcceptApi config sent setup).1 = .ok c' → c' = config ∧ sent = none ∧ setup = none) := by
  refine ⟨fun out h => ?_, fun out h => ?_, fun c' h => ?_, fun c' h => ?_⟩
  · unfold proveApi at h
    obtain ⟨sent, answer, exec⟩ := io
    dsimp only at h ⊢
    split at h
    · cases h
    split at h
    · cases h
    split at h
    · cases h
    · cases h
    split at h
    · cases h
    · cases h
    split at h
    · cases h
    · exact ⟨rfl, rfl, rfl⟩
  · unfold VState.api at h
    split at h
    · cases h
    · cases h
    · cases h
    · split at h
      · cases h
      · dsimp only at h
        have h := Option.some.inj h
        unfold acceptResult at h
        split at h
        · cases h
        · split at h
          · split at h <;> cases h
          · cases h
        · split at h
          · cases h
          · rfl
    · cases h
    · cases h
    · cases h
  · unfold proverCommitApi at h
    split at h
    · cases h
    split at h
    · cases h
    · cases h
    split at h
    · cases h
    · cases h
      exact ⟨rfl, rfl, rfl, rfl⟩
  · unfold verifierAcceptApi at h
    split at h
    · cases h
    split at h
    · cases h
    · cases h
      exact ⟨rfl, rfl, rfl⟩

/-! ## Examples -/

/-- Example for `C137_prove`, `C137_reason` and `C137_round`: the second statement of `exRounds` is rejected; and the
same statement, accepted, when the channel fails. -/
example :
    (match proveApi (fun _ => "") exEnv [1, 2] exHsd exData (exZkVm fun _ => 0) exProveConfig
        (fun _ => Vector.replicate 16 6) ⟨none, .ok (.rejected (some "enough")), none⟩ with
      | (some _, .err e) => e.display
      | _ => "") = "user error: proving rejected by verifier caused by: enough" ∧
    (match proveApi (fun _ => "") exEnv [1, 2] exHsd exData (exZkVm fun _ => 0) exProveConfig
        (fun _ => Vector.replicate 16 6) ⟨none, .error "unexpected end of file", none⟩ with
      | (some _, .err e) => e.display
      | _ => "") =
      "io error: failed to receive prove response from verifier caused by: unexpected end of file" ∧
    (match proveApi (fun _ => "") exEnv [1, 2] exHsd exData (exZkVm fun _ => 0) exProveConfig
        (fun _ => Vector.replicate 16 6) ⟨none, .ok .ok, some "closed"⟩ with
      | (none, .err e) => e.display
      | _ => "") = "internal error: proving failed during zk execution caused by: closed" := by
  decide +kernel

/-- Example for `C137_verify`: a verifier whose root store cannot be used, and a prover that does not send what it
announced (`C137_internal_is_not_a_bug`). -/
example :
    (match ((VState.verifying (exZkVm fun _ => 0) ⟨exProveConfig.toRequest, none, none⟩).api (fun _ => "") "bad root"
        { exEnv with certs := none } (.accept none none)).2.1 with
      | some (.err e) => e.display
      | _ => "") = "config error: failed to create certificate verifier caused by: bad root" ∧
    (match ((VState.verifying (exZkVm fun _ => 0) ⟨exProveConfig.toRequest, none, none⟩).api (fun _ => "") ""
        exEnv (.accept none none)).2.1 with
      | some (.err e) => e.display
      | _ => "") = "internal error: verification failed: prover requested to reveal data but did not send transcript" := by
  decide +kernel

/-- Example for `C137_success`: the first statement of `exRounds` is proved, and a configuration is set up. -/
example :
    (match (proveApi (fun _ => "") exEnv [1, 2] exHsd exData (exZkVm fun _ => 0) exProveConfig
        (fun _ => Vector.replicate 16 6) ⟨none, .ok .ok, none⟩).2 with
      | .ok out => out.commitments.length
      | _ => 0) = 1 ∧
    proverCommitApi (.mpc 4 : TlsCommitConfig Nat Nat) none (.ok .ok) none = .ok (.mpc 4) := by
  refine ⟨?_, rfl⟩
  decide +kernel

/-- Example for `C137_versions` and `C137_commit_reason`. -/
example :
    let v : Version := ⟨0, 1, 0, "alpha", ""⟩
    let sv := fun v : Version => v.pre
    (verifierCommitApi sv { v with pre := "beta" } (.ok (commitMsg v (.mpc 4 : TlsCommitConfig Nat Nat))) none).1 =
      .err ⟨.config, some "prover version does not match with verifier: alpha != beta", none⟩ ∧
    proverCommitApi (.mpc 4 : TlsCommitConfig Nat Nat) none (.ok (.rejected none)) none =
      .err ⟨.user, some "commitment protocol rejected by verifier", some "no reason provided"⟩ := by
  refine ⟨?_, rfl⟩
  decide +kernel

end Tlsn.Protocol
