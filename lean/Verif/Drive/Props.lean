import Verif.Drive.Ends
import Verif.Client.Demo

/-! # The prover while it is connected: theorems -/

namespace Tlsn.Drive

open Tlsn.Client

variable {cfg : ClientCfg} {W : World}

/-! ## C84: what the application reads and writes -/

/-- C84.  Whatever the schedule, the application reads, from its beginning and without gaps, the application data that was decrypted,
and only after the server was authenticated; what is encrypted is, from its beginning and without gaps, what the application wrote.
The records that are processed are those at the beginning of what the socket gave, and what the socket takes are the
client's messages and the leader's records in order. -/
theorem C84_streams (X : Outside) (c0 : Conn) (h : Conn.new cfg = .ok c0) (b : Bool) (acts : List Act) :
    let d := ((Driver.new c0 b).run cfg X acts).1
    let log := d.client.inner.conn.io.common.log
    d.appRead <+: (heardOf log).flatMap dataOf ∧
    (d.appRead ≠ [] → Authenticated cfg log) ∧
    sentOf log <+: d.appWrote ∧
    (∃ taken waiting desynced rest, taken <+: d.socketIn ∧ Deframed taken (recordsOf log ++ waiting) desynced rest) ∧
    ∃ unsent, WireOf c0.io.common.fragmenter.maxFrag log (d.socketOut ++ unsent) := by
  intro d log
  have hk : Kept cfg X.W c0 d := kept_run X c0 b acts
  obtain ⟨l, hl⟩ := hk.ran
  have h1 : (c0.run cfg X.W l).1 = d.client.inner.conn := by rw [hl]; rfl
  have h2 : (c0.run cfg X.W l).2 = d.client.inner.trace := by rw [hl]; rfl
  have hread : d.appRead <+: readOut d.client.inner.trace := ⟨_, hk.read.symm⟩
  refine ⟨?_, fun hne => ?_, ?_, ?_, ?_⟩
  · have := (C78_received X.W c0 h l).1
    rw [h1, h2] at this
    exact hread.trans this
  · have := (C77_authenticated X.W c0 h l).2.1
    rw [h1, h2] at this
    refine this fun h0 => hne ?_
    rw [h0] at hread
    exact List.prefix_nil.1 hread
  · have := (C78_sent X.W c0 h l).1
    rw [h1, h2] at this
    exact this.trans ⟨_, hk.wrote.symm⟩
  · have := C78_records X.W c0 h l
    rw [h1, h2] at this
    exact ⟨_, _, _, _, ⟨_, hk.socketIn.symm⟩, this⟩
  · have := C78_wire X.W c0 h l
    rw [h1, h2] at this
    refine ⟨d.toServer ++ d.client.inner.conn.io.common.sendableTls.chunks.flatten, ?_⟩
    rw [← List.append_assoc, ← hk.socketOut]
    exact this

/-! ## C85: when the prover is done -/

/-- After the end of the stream, the socket gives no more data. -/
def EofLast (acts : List Act) : Prop :=
  ∀ pre e post e', acts = pre ++ .poll e :: post → e.socketRead = .eof → Act.poll e' ∈ post → ∀ b, e'.socketRead = .data b → b = []

theorem takeServer_closed (e : Env) (d : Driver) : (d.takeServer cfg W e).serverClosed = d.serverClosed := by
  unfold Driver.takeServer
  split
  · split
    · rcases d.client.readTls cfg W (d.fromServer.take (e.serverGet + 1)) with ⟨c, r⟩
      cases r <;> rfl
    · rfl
  · split <;> rfl

theorem ioTo_closed (e : Env) (d : Driver) (h : (d.ioTo cfg W e).1.serverClosed = true) : d.serverClosed = true ∨ e.socketRead = .eof := by
  unfold Driver.ioTo at h
  have h1 : ((d.takeApp cfg W e).takeSocket e).1.serverClosed = true → d.serverClosed = true ∨ e.socketRead = .eof := by
    rw [← takeApp_closed (cfg := cfg) (W := W) e d]
    unfold Driver.takeSocket
    cases e.socketRead <;> first | exact .inl | exact fun _ => .inr rfl
  revert h h1
  rcases (d.takeApp cfg W e).takeSocket e with ⟨d1, err⟩
  intro h h1
  cases err with
  | none => exact h1 (by rw [← takeServer_closed (cfg := cfg) (W := W) e d1]; exact h)
  | some x => exact h1 h

theorem ioFrom_closed (e : Env) (d : Driver) : (d.ioFrom cfg W e).1.serverClosed = d.serverClosed := by
  have h1 : (d.giveServer cfg W e).serverClosed = d.serverClosed := by
    unfold Driver.giveServer
    rcases d.client.writeTls cfg W e.room with ⟨c, r⟩
    cases r <;> rfl
  have h2 : ∀ d : Driver, (d.giveSocket e).1.serverClosed = d.serverClosed := by
    intro d
    unfold Driver.giveSocket
    cases e.socketWrite <;> rfl
  have h3 : ∀ d : Driver, (d.giveApp cfg W e).1.serverClosed = d.serverClosed := by
    intro d
    unfold Driver.giveApp
    cases e.appSink with
    | takes room =>
      simp only
      split
      · rcases d.client.read cfg W room with ⟨c, r⟩
        cases r <;> rfl
      · rfl
    | _ => rfl
  unfold Driver.ioFrom
  have h4 := h2 (d.giveServer cfg W e)
  revert h4
  rcases (d.giveServer cfg W e).giveSocket e with ⟨d1, err⟩
  intro h4
  cases err with
  | none => exact (h3 d1).trans (h4.trans h1)
  | some x => exact h4.trans h1

theorem poll_closed (X : Outside) (e : Env) (d : Driver) (h : (d.poll cfg X e).1.serverClosed = true) :
    d.serverClosed = true ∨ e.socketRead = .eof := by
  unfold Driver.poll at h
  have h1 := ioTo_closed (cfg := cfg) (W := X.W) e d
  revert h h1
  rcases d.ioTo cfg X.W e with ⟨d1, err⟩
  intro h h1
  cases err with
  | some x => exact h1 h
  | none =>
    simp only at h
    have h2 : (d1.pollClient cfg X e).1.serverClosed = d1.serverClosed := by
      unfold Driver.pollClient
      split
      · rfl
      · rcases d1.client.poll cfg X e.fuel e.ticks with ⟨c, r⟩
        cases r <;> rfl
    revert h h2
    rcases d1.pollClient cfg X e with ⟨d2, r⟩
    intro h h2
    cases r with
    | pending =>
      simp only at h
      have h3 := ioFrom_closed (cfg := cfg) (W := X.W) e d2
      revert h h3
      rcases d2.ioFrom cfg X.W e with ⟨d3, err⟩
      intro h h3
      have h4 : d3.serverClosed = true := by cases err <;> exact h
      exact h1 (h2.symm.trans (h3.symm.trans h4))
    | _ => exact h1 (h2.symm.trans h)

theorem finishing_closed (e : Env) (d : Driver) (err : Option DErr) : (d.finishing e err).1.serverClosed = d.serverClosed := by
  unfold Driver.finishing
  cases e.finish with
  | none => rfl
  | some ok =>
    cases err with
    | some x => rfl
    | none => cases ok <;> rfl

theorem future_closed (X : Outside) (e : Env) (d : Driver) (h : (d.pollFuture cfg X e).1.serverClosed = true) :
    d.serverClosed = true ∨ e.socketRead = .eof := by
  unfold Driver.pollFuture at h
  cases hp : d.phase with
  | connected =>
    rw [hp] at h
    simp only at h
    have h1 := poll_closed (cfg := cfg) X e d
    revert h h1
    rcases d.poll cfg X e with ⟨d1, r⟩
    intro h h1
    refine h1 ?_
    cases r <;> first | exact h | (rw [← finishing_closed e d1 _]; exact h)
  | finishing err =>
    rw [hp] at h
    exact .inl (by rw [← finishing_closed e d err]; exact h)
  | done => rw [hp] at h; exact .inl h
  | error => rw [hp] at h; exact .inl h

theorem drive_snoc (X : Outside) (d : Driver) (acts : List Act) (a : Act) :
    d.run cfg X (acts ++ [a]) = (((d.run cfg X acts).1.step cfg X a).1, (d.run cfg X acts).2 ++ [(a, ((d.run cfg X acts).1.step cfg X a).2)]) :=
  Sdk.runCalls_snoc _ _

theorem closed_run (X : Outside) (c0 : Conn) (b : Bool) (acts : List Act)
    (h : ((Driver.new c0 b).run cfg X acts).1.serverClosed = true) : ∃ e, Act.poll e ∈ acts ∧ e.socketRead = .eof := by
  induction acts using List.reverseRecOn with
  | nil => cases h
  | append_singleton acts a ih =>
    rw [drive_snoc] at h
    have keep : ((Driver.new c0 b).run cfg X acts).1.serverClosed = true → ∃ e, Act.poll e ∈ acts ++ [a] ∧ e.socketRead = .eof := by
      intro h'
      obtain ⟨e, he, h2⟩ := ih h'
      exact ⟨e, List.mem_append_left _ he, h2⟩
    cases a with
    | poll e =>
      rcases future_closed X e _ h with h' | h'
      · exact keep h'
      · exact ⟨e, by simp, h'⟩
    | appWrite x =>
      refine keep ?_
      revert h
      show (if _ then _ else _ : Driver).serverClosed = true → _
      split <;> exact id
    | appClose => exact keep h
    | appRead n => exact keep h
    | setDecrypt x => exact keep h

theorem EofLast.left {acts more : List Act} (h : EofLast (acts ++ more)) : EofLast acts := by
  intro pre e post e' hl he hm
  exact h pre e (post ++ more) e' (by rw [hl]; simp) he (List.mem_append_left _ hm)

theorem EofLast.noMore {X : Outside} {c0 : Conn} {b : Bool} {acts : List Act} {a : Act} (h : EofLast (acts ++ [a])) :
    NoMoreAct ((Driver.new c0 b).run cfg X acts).1 a := by
  cases a with
  | poll e =>
    intro hs x hx
    obtain ⟨e', h1, h2⟩ := closed_run X c0 b acts hs
    obtain ⟨pre, post, rfl⟩ := List.append_of_mem h1
    exact h pre e' (post ++ [.poll e]) e (by simp) h2 (by simp) x hx
  | _ => trivial

theorem ends_run (X : Outside) (c0 : Conn) (b : Bool) (acts : List Act) (he : EofLast acts) :
    Ends X ((Driver.new c0 b).run cfg X acts).1 := by
  induction acts using List.reverseRecOn with
  | nil => exact ends_new X c0 b
  | append_singleton acts a ih =>
    rw [drive_snoc]
    exact ends_step X _ a (ih he.left) he.noMore

/-- The future is done when it returns the committed prover. -/
theorem committed_done (X : Outside) (e : Env) (d : Driver) (h : (d.pollFuture cfg X e).2 = .committed) :
    (d.pollFuture cfg X e).1.phase = .done := by
  have hf : ∀ (d : Driver) err, (d.finishing e err).2 = .committed → (d.finishing e err).1.phase = .done := by
    intro d err
    unfold Driver.finishing
    cases e.finish with
    | none => intro h; cases h
    | some ok =>
      cases err with
      | some x => intro h; cases h
      | none =>
        cases ok with
        | false => intro h; cases h
        | true => exact fun _ => rfl
  unfold Driver.pollFuture at h ⊢
  cases hp : d.phase with
  | connected =>
    rw [hp] at h
    simp only at h ⊢
    revert h
    rcases d.poll cfg X e with ⟨d1, r⟩
    intro h
    cases r <;> first | exact hf _ _ h | cases h
  | finishing err => rw [hp] at h; exact hf _ _ h
  | done => rw [hp] at h; cases h
  | error => rw [hp] at h; cases h

/-- C85.  When the future returns the committed prover, the server has closed the connection, all that it sent was processed as records
of an authenticated session, up to an incomplete record at the end; the leader has closed its side and has nothing left; and all
application data is with the application or waiting for it. -/
theorem C85_committed (X : Outside) (c0 : Conn) (h : Conn.new cfg = .ok c0) (b : Bool) (acts : List Act) (e : Env)
    (he : EofLast (acts ++ [.poll e])) (hr : (((Driver.new c0 b).run cfg X acts).1.step cfg X (.poll e)).2 = .committed) :
    let d := (((Driver.new c0 b).run cfg X acts).1.step cfg X (.poll e)).1
    let log := d.client.inner.conn.io.common.log
    (∃ e', Act.poll e' ∈ acts ++ [.poll e] ∧ e'.socketRead = .eof) ∧
    Authenticated cfg log ∧
    (∃ rest, Deframed d.socketIn (recordsOf log) false rest) ∧
    Ev.close (.ok ()) ∈ log ∧ X.isEmpty log = true ∧
    d.appRead ++ d.appOut = (heardOf log).flatMap dataOf := by
  intro d log
  have hd : ((Driver.new c0 b).run cfg X (acts ++ [.poll e])).1 = d := by rw [drive_snoc]
  have hends : Ends X d := hd ▸ ends_run X c0 b _ he
  have hk : Kept cfg X.W c0 d := hd ▸ kept_run X c0 b (acts ++ [.poll e])
  obtain ⟨hs, ho⟩ := hends.phase (.inr (committed_done X e _ hr))
  have hph := hends.output ho
  obtain ⟨c1, c2⟩ := hends.fine.closing (by rw [hph]; rfl)
  obtain ⟨ht, hclose⟩ := hends.fine.settled (by rw [hph]; rfl)
  obtain ⟨hle, hfin⟩ := hends.fine.over (by rw [hph]; rfl)
  obtain ⟨-, hnil⟩ := hends.server c1
  unfold Inner.layerEmpty at hle
  simp only [Bool.and_eq_true] at hle
  obtain ⟨l, hl⟩ := hk.ran
  have h1 : (c0.run cfg X.W l).1 = d.client.inner.conn := by rw [hl]; rfl
  have h2 : (c0.run cfg X.W l).2 = d.client.inner.trace := by rw [hl]; rfl
  refine ⟨closed_run X c0 b _ (by rw [hd]; exact hs), ?_, ?_, hclose, hle.2, ?_⟩
  · have := (C77_authenticated X.W c0 h l).2.2
    rw [h1] at this
    exact this c2
  · have := C78_records X.W c0 h l
    rw [h1, h2] at this
    simp only [ht.frames, ht.synced, List.append_nil] at this
    have hin := hk.socketIn
    rw [hnil, List.append_nil] at hin
    rw [hin]
    exact ⟨_, this⟩
  · have := (C78_received X.W c0 h l).2
    rw [h1, h2] at this
    have hch : d.client.inner.conn.io.common.received.chunks = [] := by
      have := hle.1
      unfold VecBuf.isEmpty at this
      exact List.isEmpty_iff.1 this
    have h0 : d.client.inner.conn.io.common.received.len = 0 := by unfold VecBuf.len; rw [hch]; exact rfl
    have hrd : (d.client.inner.conn.io.common.received.read 0).2 = [] := by
      unfold VecBuf.read
      rw [hch]
      exact rfl
    have := this ht.state 0 (by rw [h0])
    rw [hrd, List.append_nil, hk.read] at this
    exact this

/-- The future has returned. -/
def Returned (d : Driver) : Prop := d.phase = .done ∨ d.phase = .error

theorem poll_ne_none (X : Outside) (e : Env) (d : Driver) : (d.pollFuture cfg X e).2 ≠ .none ∧
    ((d.pollFuture cfg X e).2 ≠ .pending → Returned (d.pollFuture cfg X e).1) := by
  have hf : ∀ (d : Driver) err, (d.finishing e err).2 ≠ .none ∧ ((d.finishing e err).2 ≠ .pending → Returned (d.finishing e err).1) := by
    intro d err
    unfold Driver.finishing
    cases e.finish with
    | none => exact ⟨by simp, fun h => absurd rfl h⟩
    | some ok =>
      cases err with
      | some x => exact ⟨by simp, fun _ => .inr rfl⟩
      | none =>
        cases ok with
        | false => exact ⟨by simp, fun _ => .inr rfl⟩
        | true => exact ⟨by simp, fun _ => .inl rfl⟩
  unfold Driver.pollFuture
  cases hp : d.phase with
  | connected =>
    simp only
    rcases d.poll cfg X e with ⟨d1, r⟩
    cases r with
    | ready => exact hf _ _
    | err x => exact hf _ _
    | pending => exact ⟨by simp, fun h => absurd rfl h⟩
    | _ => exact ⟨by simp, fun _ => .inr rfl⟩
  | finishing err => exact hf _ _
  | done => exact ⟨by simp, fun _ => .inr rfl⟩
  | error => exact ⟨by simp, fun _ => .inr hp⟩

/-- C85.  After the future has returned the prover or an error, or has panicked, polling it again is an error each time. -/
theorem C85_once (X : Outside) (d : Driver) (acts : List Act) (n m : Nat) (hnm : n < m) (e e' : Env) (r r' : Reply)
    (hr : (d.run cfg X acts).2[n]? = some (.poll e, r)) (hret : r ≠ .pending)
    (hr' : (d.run cfg X acts).2[m]? = some (.poll e', r')) : r' = .err .polledAgain := by
  have hdead : ∀ (d : Driver) a, Returned d → Returned (d.step cfg X a).1 ∧
      ((d.step cfg X a).2 = .err .polledAgain ∨ (d.step cfg X a).2 = .none) := by
    intro d a hd
    cases a with
    | poll e =>
      show Returned (d.pollFuture cfg X e).1 ∧ _
      rcases hd with hd | hd
      · refine ⟨.inr ?_, .inl ?_⟩
        · unfold Driver.pollFuture; rw [hd]
        · show (d.pollFuture cfg X e).2 = _
          unfold Driver.pollFuture; rw [hd]
      · refine ⟨.inr ?_, .inl ?_⟩
        · unfold Driver.pollFuture; rw [hd]; exact hd
        · show (d.pollFuture cfg X e).2 = _
          unfold Driver.pollFuture; rw [hd]
    | appWrite b =>
      refine ⟨?_, .inr rfl⟩
      show Returned (if d.appClosed then d else _)
      split
      · exact hd
      · exact hd
    | appClose => exact ⟨hd, .inr rfl⟩
    | appRead k => exact ⟨hd, .inr rfl⟩
    | setDecrypt b => exact ⟨hd, .inr rfl⟩
  have hn : Returned (d.run cfg X (acts.take (n + 1))).1 := by
    have h1 := Sdk.runCalls_after hr
    obtain ⟨-, -, h2⟩ := Sdk.runCalls_get hr
    show Returned (Sdk.runCalls _ d _).1
    rw [h1]
    refine (poll_ne_none X e _).2 ?_
    rw [show (Driver.pollFuture cfg X e _).2 = r from h2.symm]
    exact hret
  have hbad := Sdk.runCalls_closed (Bad := fun r => r = .err .polledAgain ∨ r = .none) hdead hnm hn hr'
  rcases hbad with h | h
  · exact h
  · obtain ⟨-, -, h2⟩ := Sdk.runCalls_get hr'
    exact absurd (h2.symm.trans h) (poll_ne_none X e' _).1

/-! ## The closing alert -/

theorem ioTo_phase (e : Env) (d : Driver) : (d.ioTo cfg W e).1.phase = d.phase := by
  have h1 : (d.takeApp cfg W e).phase = d.phase := by
    unfold Driver.takeApp
    split
    · split
      · rcases d.client.write cfg W (d.appIn.take (e.appGet + 1)) with ⟨c, r⟩
        cases r <;> rfl
      · rfl
    · split <;> rfl
  have h2 : ((d.takeApp cfg W e).takeSocket e).1.phase = d.phase := by
    unfold Driver.takeSocket
    cases e.socketRead <;> exact h1
  unfold Driver.ioTo
  revert h2
  rcases (d.takeApp cfg W e).takeSocket e with ⟨d1, err⟩
  intro h2
  cases err with
  | some x => exact h2
  | none =>
    refine Eq.trans ?_ h2
    show (d1.takeServer cfg W e).phase = d1.phase
    unfold Driver.takeServer
    split
    · split
      · rcases d1.client.readTls cfg W (d1.fromServer.take (e.serverGet + 1)) with ⟨c, r⟩
        cases r <;> rfl
      · rfl
    · split <;> rfl

theorem ioFrom_phase (e : Env) (d : Driver) : (d.ioFrom cfg W e).1.phase = d.phase := by
  have h1 : (d.giveServer cfg W e).phase = d.phase := by
    unfold Driver.giveServer
    rcases d.client.writeTls cfg W e.room with ⟨c, r⟩
    cases r <;> rfl
  have h2 : ((d.giveServer cfg W e).giveSocket e).1.phase = d.phase := by
    unfold Driver.giveSocket
    cases e.socketWrite <;> exact h1
  unfold Driver.ioFrom
  revert h2
  rcases (d.giveServer cfg W e).giveSocket e with ⟨d1, err⟩
  intro h2
  cases err with
  | some x => exact h2
  | none =>
    refine Eq.trans ?_ h2
    show (d1.giveApp cfg W e).1.phase = d1.phase
    unfold Driver.giveApp
    cases e.appSink with
    | takes room =>
      simp only
      split
      · rcases d1.client.read cfg W room with ⟨c, r⟩
        cases r <;> rfl
      · rfl
    | _ => rfl

/-- C85.  `is_terminated` says that the prover was returned; after an error it says that the future may be polled again. -/
theorem C85_terminated (X : Outside) (d : Driver) (e : Env) (hd : d.isTerminated = false) :
    ((d.step cfg X (.poll e)).1.isTerminated = true ↔ (d.step cfg X (.poll e)).2 = .committed) := by
  have hf : ∀ (d : Driver) err, (d.finishing e err).1.isTerminated = true ↔ (d.finishing e err).2 = .committed := by
    intro d err
    unfold Driver.finishing Driver.isTerminated
    cases e.finish with
    | none => simp
    | some ok =>
      cases err with
      | some x => simp
      | none => cases ok <;> simp
  have hk : (d.poll cfg X e).1.phase = d.phase := by
    unfold Driver.poll
    have h1 : (d.ioTo cfg X.W e).1.phase = d.phase := ioTo_phase e d
    revert h1
    rcases d.ioTo cfg X.W e with ⟨d1, err⟩
    intro h1
    cases err with
    | some x => exact h1
    | none =>
      simp only
      have h2 : (d1.pollClient cfg X e).1.phase = d1.phase := by
        unfold Driver.pollClient
        split
        · rfl
        · rcases d1.client.poll cfg X e.fuel e.ticks with ⟨c, r⟩
          cases r <;> rfl
      revert h2
      rcases d1.pollClient cfg X e with ⟨d2, r⟩
      intro h2
      have h2 := h2.trans h1
      cases r with
      | pending =>
        simp only
        have h3 : (d2.ioFrom cfg X.W e).1.phase = d2.phase := ioFrom_phase e d2
        revert h3
        rcases d2.ioFrom cfg X.W e with ⟨d3, err⟩
        intro h3
        cases err <;> exact h3.trans h2
      | _ => exact h2
  show (d.pollFuture cfg X e).1.isTerminated = true ↔ (d.pollFuture cfg X e).2 = .committed
  unfold Driver.pollFuture
  cases hp : d.phase with
  | connected =>
    simp only
    rw [hp] at hk
    revert hk
    rcases d.poll cfg X e with ⟨d1, r⟩
    intro hk
    replace hk : d1.phase = .connected := hk
    cases r with
    | ready => exact hf _ _
    | err x => exact hf _ _
    | _ => simp [Driver.isTerminated, show d1.phase = .connected from hk]
  | finishing err => exact hf _ _
  | done => simp [Driver.isTerminated, hp] at hd
  | error => simp [Driver.isTerminated, hp]

theorem calls_log {a b : Conn × List (Call × CReply)} (h : Calls cfg W Still a b) : a.1.io.common.log <+: b.1.io.common.log := by
  induction h with
  | refl => exact List.prefix_rfl
  | step _ hk ih =>
    rcases hk with hk | ⟨x, rfl⟩
    · exact ih.trans (le_step W _ _ hk).log
    · exact ih.trans (List.prefix_append _ _)

theorem sent_prefix {l l' : List Ev} (h : l <+: l') : sentOf l <+: sentOf l' := by
  obtain ⟨t, rfl⟩ := h
  exact ⟨sentOf t, by simp [sentOf]⟩

theorem prefix_antisymm {α : Type} {a b : List α} (h1 : a <+: b) (h2 : b <+: a) : a = b :=
  h1.eq_of_length (Nat.le_antisymm h1.length_le h2.length_le)

/-- All that was accepted from the application was given to the leader. -/
def AllSent (s : Conn × List (Call × CReply)) : Prop := sentOf s.1.io.common.log = written s.2

theorem ran_sent {c0 : Conn} (h : Conn.new cfg = .ok c0) {s : Conn × List (Call × CReply)} (hr : ∃ l, c0.run cfg W l = s) :
    sentOf s.1.io.common.log <+: written s.2 := by
  obtain ⟨l, rfl⟩ := hr
  exact (C78_sent W c0 h l).1

theorem AllSent.still {c0 : Conn} (h : Conn.new cfg = .ok c0) {a b : Conn × List (Call × CReply)} (ha : AllSent a)
    (hr : ∃ l, c0.run cfg W l = a) (hc : Calls cfg W Still a b) : AllSent b := by
  refine prefix_antisymm (ran_sent h (hc.ran hr)) ?_
  rw [hc.still.1, ← (show sentOf a.1.io.common.log = written a.2 from ha)]
  exact sent_prefix (calls_log hc)

theorem run_sent {c0 : Conn} (h : Conn.new cfg = .ok c0) (n : Nat) (i j : Inner) (hr : ∃ l, c0.run cfg W l = i.seen)
    (hh : i.conn.isHandshaking = false) (hok : runFut cfg W n i = (j, .ok)) : AllSent j.seen := by
  have h1 : ∀ i : Inner, (∃ l, c0.run cfg W l = i.seen) → i.conn.isHandshaking = false → ∀ w r, (i.call cfg W (.process n)).2 = .io w r →
      AllSent (i.call cfg W (.process n)).1.seen := by
    intro i ⟨l, hl⟩ hh w r hio
    have h2 := (C78_sent W c0 h l).2.2 n w r
    have e1 : (c0.run cfg W l).1 = i.conn := by rw [hl]; rfl
    have e2 : (c0.run cfg W l).2 = i.trace := by rw [hl]; rfl
    rw [e1, e2] at h2
    have h3 := h2 hio (le_handshaking (le_step W i.conn (.process n) rfl) hh)
    have h4 := (Calls.still (Calls.move (Calls.one (cfg := cfg) (W := W) (S := Moves) i (.process n) rfl))).1
    show sentOf (i.conn.step cfg W (.process n)).1.io.common.log = written (i.call cfg W (.process n)).1.seen.2
    rw [h4]
    exact h3
  have hrun := hok
  unfold runFut at hok
  obtain ⟨hp1, -⟩ := call_process (cfg := cfg) (W := W) n i
  have hs := h1 i hr hh
  have hr1 : ∃ l, c0.run cfg W l = (i.call cfg W (.process n)).1.seen :=
    (Calls.one (S := Moves) i (.process n) rfl).ran hr
  revert hok hp1 hs hr1
  rcases i.call cfg W (.process n) with ⟨i1, reply⟩
  intro hok hp1 hs hr1
  cases reply with
  | io w r =>
    refine (hs w r rfl).still h hr1 ?_
    have := ((calls_runLoop (cfg := cfg) (W := W) n n w r i1).1.mono fun _ => moves_process).move
    rw [show runLoop cfg W n n w r i1 = (j, .ok) from hok] at this
    exact this
  | _ =>
    rcases hp1 with ⟨_, _, h1⟩ | h1
    · cases h1
    · exact absurd (Prod.mk.inj hok).2 h1

end Tlsn.Drive
