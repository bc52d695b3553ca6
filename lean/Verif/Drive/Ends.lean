import Verif.Drive.Flow

/-! # How the connection ends -/

namespace Tlsn.Drive

open Tlsn.Client

variable {cfg : ClientCfg} {W : World}

/-! ## The futures -/

theorem process_reply (c : Conn) (n : Nat) : (∃ w r, (c.step cfg W (.process n)).2 = .io w r) ∨
    futRes (c.step cfg W (.process n)).2 ≠ .ok := by
  show (∃ w r, (callProcess cfg W n c).2 = .io w r) ∨ futRes (callProcess cfg W n c).2 ≠ .ok
  unfold callProcess
  cases c.state with
  | error e => exact .inr (by simp [futRes])
  | ok s =>
    simp only
    rcases processBody cfg W n s c.io with ⟨io, r⟩
    cases r with
    | ok a =>
      cases a with
      | ok s => exact .inl ⟨_, _, rfl⟩
      | error e => exact .inr (by simp [futRes])
    | err e => exact .inr (by simp [futRes])
    | dropped => exact .inr (by simp [futRes])
    | panicked => exact .inr (by simp [futRes])

/-- What is known after a call of `process_new_packets`. -/
theorem call_process (n : Nat) (i : Inner) : ((∃ w r, (i.call cfg W (.process n)).2 = .io w r) ∨
    futRes (i.call cfg W (.process n)).2 ≠ .ok) ∧
    ∀ w r, (i.call cfg W (.process n)).2 = .io w r → Tidy (i.call cfg W (.process n)).1.conn :=
  ⟨process_reply i.conn n, fun w r h => process_frames W i.conn n w r h⟩

/-- crates/tlsn/src/prover/client/mpc.rs:365: `run` ends after a call of `process_new_packets` that succeeded. -/
theorem runLoop_ok (n k w r : Nat) (i j : Inner) (h : runLoop cfg W n k w r i = (j, .ok)) : Tidy j.conn := by
  induction k generalizing w r i with
  | zero => cases h
  | succ k ih =>
    unfold runLoop at h
    obtain ⟨h1, h2⟩ := call_process (cfg := cfg) (W := W) n i
    revert h h1 h2
    rcases i.call cfg W (.process n) with ⟨i1, reply⟩
    intro h h1 h2
    cases reply with
    | io w' r' =>
      simp only at h
      split at h
      · cases h
        exact h2 _ _ rfl
      · exact ih _ _ _ h
    | _ =>
      rcases h1 with ⟨_, _, h1⟩ | h1
      · cases h1
      · exact absurd (Prod.mk.inj h).2 h1

theorem run_ok (n : Nat) (i j : Inner) (h : runFut cfg W n i = (j, .ok)) : Tidy j.conn := by
  unfold runFut at h
  obtain ⟨h1, h2⟩ := call_process (cfg := cfg) (W := W) n i
  revert h h1 h2
  rcases i.call cfg W (.process n) with ⟨i1, reply⟩
  intro h h1 h2
  cases reply with
  | io w' r' => exact runLoop_ok _ _ _ _ _ _ h
  | _ =>
    rcases h1 with ⟨_, _, h1⟩ | h1
    · cases h1
    · exact absurd (Prod.mk.inj h).2 h1

/-- `server_close` ends well after everything was processed and the leader has closed its side. -/
theorem serverClose_ok (n : Nat) (i j : Inner) (h : serverCloseFut cfg W n i = (j, .ok)) :
    Tidy j.conn ∧ Ev.close (.ok ()) ∈ j.conn.io.common.log := by
  unfold serverCloseFut at h
  have h1 := run_ok (cfg := cfg) (W := W) n i
  revert h h1
  rcases runFut cfg W n i with ⟨i1, r⟩
  intro h h1
  cases r with
  | ok =>
    have ht := h1 i1 rfl
    simp only [Prod.mk.injEq] at h
    obtain ⟨rfl, h⟩ := h
    refine ⟨⟨ht.frames, ht.synced, ht.state⟩, ?_⟩
    have hc : (i1.call cfg W .serverClosed).2 = replyOf (ask W.close .close .backend i1.conn.io.common).2 := rfl
    show Ev.close (.ok ()) ∈ (ask W.close .close .backend i1.conn.io.common).1.log
    rw [hc] at h
    unfold ask at h ⊢
    simp only at h ⊢
    cases hr : W.close i1.conn.io.common.log with
    | ok u => simp
    | failed e => rw [hr] at h; simp [replyOf, futRes] at h
    | dropped => rw [hr] at h; simp [replyOf, futRes] at h
    | panicked => rw [hr] at h; simp [replyOf, futRes] at h
  | _ => cases h

/-- Nothing is taken back by the futures. -/
theorem Calls.le {a b : Conn × List (Call × CReply)} (h : Calls cfg W Moves a b) : Le a.1.io.common b.1.io.common := by
  induction h with
  | refl => exact Le.refl _
  | step _ hk ih => exact ih.trans (le_step W _ _ hk)

theorem le_handshaking {c c' : Conn} (h : Le c.io.common c'.io.common) (hc : c.isHandshaking = false) : c'.isHandshaking = false := by
  simp only [Conn.isHandshaking, Bool.not_eq_false', Bool.and_eq_true] at hc ⊢
  exact ⟨h.maySend hc.1, h.mayReceive hc.2⟩

theorem exec_le (n : Nat) (fut : Fut) (i : Inner) : Le i.conn.io.common (fut.exec cfg W n i).1.conn.io.common :=
  (calls_exec (cfg := cfg) (W := W) n fut i).le

/-! ## The client -/

/-- The states from which the client ends. -/
def Phase.closing : Phase → Bool
  | .closeActive | .closeBusy _ | .finalizing | .finished => true
  | _ => false

/-- The states in which the leader has closed its side. -/
def Phase.settled : Phase → Bool
  | .closeActive | .closeBusy .run | .finalizing | .finished => true
  | _ => false

/-- The states in which all data was handed over. -/
def Phase.over : Phase → Bool
  | .finalizing | .finished => true
  | _ => false

structure Fine (X : Outside) (c : MpcClient) : Prop where
  fut : ∀ f, c.phase = .closeBusy f → f = .run ∨ f = .serverClose
  closing : c.phase.closing = true → c.serverClosed = true ∧ c.inner.conn.isHandshaking = false
  settled : c.phase.settled = true → Tidy c.inner.conn ∧ Ev.close (.ok ()) ∈ c.inner.conn.io.common.log
  over : c.phase.over = true → c.inner.layerEmpty X = true ∧ X.finish c.inner.conn.io.common.log = true

theorem Fine.plain {X : Outside} {c : MpcClient} (h : c.phase.closing = false) : Fine X c := by
  refine ⟨?_, ?_, ?_, ?_⟩
  · intro f hf; rw [hf] at h; cases h
  · intro h'; rw [h] at h'; cases h'
  · intro h'
    cases hp : c.phase <;> rw [hp] at h h' <;> first
      | exact absurd h' Bool.false_ne_true | exact absurd h.symm Bool.false_ne_true
  · intro h'
    cases hp : c.phase <;> rw [hp] at h h' <;> first
      | exact absurd h' Bool.false_ne_true | exact absurd h.symm Bool.false_ne_true

theorem fine_activate {X : Outside} (c : MpcClient) : Fine X (c.activate cfg W) := by
  unfold MpcClient.activate
  by_cases hh : c.inner.conn.isHandshaking = true
  · rw [if_pos hh]; exact Fine.plain rfl
  · rw [if_neg hh]
    by_cases hs : c.serverClosed = true
    · rw [if_pos hs]
      exact ⟨fun f hf => .inr (by cases hf; rfl), fun _ => ⟨hs, by simpa using hh⟩, fun h => (by cases h), fun h => (by cases h)⟩
    · rw [if_neg hs]
      split
      · exact Fine.plain rfl
      · split <;> exact Fine.plain rfl

/-- What does not change, and when the client is ready. -/
structure Polled (X : Outside) (c : MpcClient) (p : MpcClient × PRes) : Prop where
  fine : Fine X p.1
  server : p.1.serverClosed = c.serverClosed
  client : p.1.clientWantsClose = c.clientWantsClose
  decrypt : p.1.decrypt = c.decrypt
  ready : p.2 = .ready → p.1.phase = .finished

theorem Polled.of {X : Outside} {c c' : MpcClient} {p : MpcClient × PRes} (h : Polled X c' p) (h1 : c'.serverClosed = c.serverClosed)
    (h2 : c'.clientWantsClose = c.clientWantsClose) (h3 : c'.decrypt = c.decrypt) : Polled X c p :=
  ⟨h.fine, h.server.trans h1, h.client.trans h2, h.decrypt.trans h3, h.ready⟩

theorem activate_flags (c : MpcClient) : (c.activate cfg W).serverClosed = c.serverClosed ∧
    (c.activate cfg W).clientWantsClose = c.clientWantsClose ∧ (c.activate cfg W).decrypt = c.decrypt := by
  unfold MpcClient.activate
  repeat' split
  all_goals exact ⟨rfl, rfl, rfl⟩

theorem Polled.failed {X : Outside} (c : MpcClient) (i : Inner) (r : PRes) (h : r ≠ .ready) : Polled X c (c.failed i r) :=
  ⟨Fine.plain rfl, rfl, rfl, rfl, fun h' => absurd h' h⟩

theorem badEnd_ne (r : FutRes) : badEnd r ≠ .ready := by cases r <;> simp [badEnd]

theorem poll_fine (X : Outside) (f : Nat) (t : Ticks) (c : MpcClient) (h : Fine X c) : Polled X c (c.poll cfg X f t) := by
  induction f generalizing t c with
  | zero => exact ⟨h, rfl, rfl, rfl, fun h => (by cases h)⟩
  | succ f ih =>
    unfold MpcClient.poll
    cases hp : c.phase with
    | start => exact (ih t { c with phase := .busy .start } (Fine.plain rfl)).of rfl rfl rfl
    | active =>
      obtain ⟨h1, h2, h3⟩ := activate_flags (cfg := cfg) (W := X.W) c
      exact (ih t _ (fine_activate c)).of h1 h2 h3
    | closeActive =>
      obtain ⟨c1, c2⟩ := h.closing (by rw [hp]; rfl)
      refine (ih t { c with phase := .closeBusy .run } ⟨fun f hf => .inl (by cases hf; rfl), fun _ => ⟨c1, c2⟩, fun _ =>
        h.settled (by rw [hp]; rfl), fun h => (by cases h)⟩).of rfl rfl rfl
    | finalizing =>
      simp only
      cases t.finalize with
      | none => exact ⟨h, rfl, rfl, rfl, fun h => (by cases h)⟩
      | some b =>
        cases b with
        | false => exact Polled.failed _ _ _ (by simp)
        | true =>
          exact ⟨⟨fun f hf => (by cases hf), fun _ => h.closing (by rw [hp]; rfl), fun _ => h.settled (by rw [hp]; rfl),
            fun _ => h.over (by rw [hp]; rfl)⟩, rfl, rfl, rfl, fun _ => rfl⟩
    | finished => exact Polled.failed _ _ _ (by simp)
    | error => exact Polled.failed _ _ _ (by simp)
    | busy fut =>
      simp only
      cases t.fut 0 with
      | none => exact ⟨h, rfl, rfl, rfl, fun h => (by cases h)⟩
      | some n =>
        simp only
        rcases fut.exec cfg X.W n c.inner with ⟨i, r⟩
        cases r with
        | ok =>
          simp only
          split
          · exact (ih t.next { c with phase := .active, inner := i } (Fine.plain rfl)).of rfl rfl rfl
          · exact ⟨Fine.plain rfl, rfl, rfl, rfl, fun h => (by cases h)⟩
        | _ => exact Polled.failed _ _ _ (badEnd_ne _)
    | closeBusy fut =>
      simp only
      cases t.fut 0 with
      | none => exact ⟨h, rfl, rfl, rfl, fun h => (by cases h)⟩
      | some n =>
        simp only
        obtain ⟨c1, c2⟩ := h.closing (by rw [hp]; rfl)
        have hle := exec_le (cfg := cfg) (W := X.W) n fut c.inner
        have hset : ∀ i, fut.exec cfg X.W n c.inner = (i, .ok) → Tidy i.conn ∧ Ev.close (.ok ()) ∈ i.conn.io.common.log := by
          intro i hi
          rcases h.fut fut hp with rfl | rfl
          · refine ⟨run_ok n c.inner i hi, ?_⟩
            have := (h.settled (by rw [hp]; rfl)).2
            rw [hi] at hle
            exact hle.log.subset this
          · exact serverClose_ok n c.inner i hi
        revert hle hset
        rcases fut.exec cfg X.W n c.inner with ⟨i, r⟩
        intro hle hset
        cases r with
        | ok =>
          simp only
          have hs := hset i rfl
          have hh := le_handshaking hle c2
          split
          · rename_i hempty
            split
            · rename_i hfin
              exact (ih t.next { c with phase := .finalizing, inner := i } ⟨fun f hf => (by cases hf), fun _ => ⟨c1, hh⟩, fun _ => hs,
                fun _ => ⟨hempty, hfin⟩⟩).of rfl rfl rfl
            · exact Polled.failed _ _ _ (by simp)
          · exact ⟨⟨fun f hf => (by cases hf), fun _ => ⟨c1, hh⟩, fun _ => hs, fun h => (by cases h)⟩, rfl, rfl, rfl, fun h => (by cases h)⟩
        | _ => exact Polled.failed _ _ _ (badEnd_ne _)

/-! ## The prover -/

structure Ends (X : Outside) (d : Driver) : Prop where
  fine : Fine X d.client
  server : d.client.serverClosed = true → d.serverClosed = true ∧ d.fromServer = []
  output : d.output = true → d.client.phase = .finished
  phase : d.phase = .finishing none ∨ d.phase = .done → d.serverClosed = true ∧ d.output = true

/-- A call which does not touch what `Fine` is about. -/
theorem Fine.call {X : Outside} {c : MpcClient} (h : Fine X c) (hopen : c.open? = true) (k : Call)
    (h1 : (c.inner.conn.step cfg W k).1.io.common.log = c.inner.conn.io.common.log)
    (h2 : (c.inner.conn.step cfg W k).1.isHandshaking = c.inner.conn.isHandshaking)
    (h3 : c.serverClosed = true → Tidy c.inner.conn → Tidy (c.inner.conn.step cfg W k).1) : Fine X (c.call cfg W k).1 := by
  refine ⟨h.fut, fun hc => ⟨(h.closing hc).1, h2.trans (h.closing hc).2⟩, fun hs => ⟨?_, ?_⟩, fun ho => ?_⟩
  · have hc : c.phase.closing = true := by
      have : c.phase.settled = true := hs
      cases hp : c.phase <;> rw [hp] at this <;> first | rfl | exact absurd this Bool.false_ne_true
    exact h3 (h.closing hc).1 (h.settled hs).1
  · show _ ∈ (c.inner.conn.step cfg W k).1.io.common.log
    rw [h1]
    exact (h.settled hs).2
  · have : c.phase.over = true := ho
    unfold MpcClient.open? at hopen
    cases hp : c.phase <;> rw [hp] at this hopen <;> first
      | exact absurd this Bool.false_ne_true | exact absurd hopen Bool.false_ne_true

theorem ends_takeApp {X : Outside} (e : Env) (d : Driver) (h : Ends X d) : Ends X (d.takeApp cfg W e) := by
  unfold Driver.takeApp
  by_cases ha : d.appIn ≠ []
  · rw [if_pos ha]
    by_cases hw : d.client.wantsWrite = true
    · rw [if_pos hw]
      have hw' : (d.client.open? && !d.client.inner.conn.io.common.sendable.isFull) = true := hw
      unfold MpcClient.write
      rw [if_pos hw']
      simp only [Bool.and_eq_true] at hw'
      have hf : Fine X (d.client.call cfg W (.writePlaintext (d.appIn.take (e.appGet + 1)))).1 := by
        have hcw : ∀ b (c : Conn), (callWrite b c).1.io.common.log = c.io.common.log ∧ (callWrite b c).1.isHandshaking = c.isHandshaking ∧
            (Tidy c → Tidy (callWrite b c).1) := by
          intro b c
          unfold callWrite
          split
          · exact ⟨rfl, rfl, id⟩
          · exact ⟨rfl, rfl, fun ht => ⟨ht.frames, ht.synced, ht.state⟩⟩
        obtain ⟨h1, h2, h3⟩ := hcw (d.appIn.take (e.appGet + 1)) d.client.inner.conn
        exact h.fine.call hw'.1 _ h1 h2 fun _ => h3
      revert hf
      have hph : (d.client.call cfg W (.writePlaintext (d.appIn.take (e.appGet + 1)))).1.phase = d.client.phase := rfl
      have hsc : (d.client.call cfg W (.writePlaintext (d.appIn.take (e.appGet + 1)))).1.serverClosed = d.client.serverClosed := rfl
      revert hph hsc
      rcases d.client.call cfg W (.writePlaintext (d.appIn.take (e.appGet + 1))) with ⟨c, r⟩
      intro hph hsc hf
      cases r <;> exact ⟨hf, fun hs => h.server (hsc.symm.trans hs), fun ho => hph.trans (h.output ho), h.phase⟩
    · rw [if_neg hw]; exact h
  · rw [if_neg ha]
    split
    · exact ⟨⟨h.fine.fut, h.fine.closing, h.fine.settled, h.fine.over⟩, h.server, h.output, h.phase⟩
    · exact h

/-- The socket gives no more data after its end. -/
def NoMore (d : Driver) (e : Env) : Prop := d.serverClosed = true → ∀ b, e.socketRead = .data b → b = []

theorem ends_takeSocket {X : Outside} (e : Env) (d : Driver) (h : Ends X d) (hn : NoMore d e) : Ends X (d.takeSocket e).1 := by
  unfold Driver.takeSocket
  cases hr : e.socketRead with
  | data b =>
    refine ⟨h.fine, fun hs => ?_, h.output, h.phase⟩
    obtain ⟨h1, h2⟩ := h.server hs
    exact ⟨h1, by show d.fromServer ++ b = []; rw [h2, hn h1 b hr]; rfl⟩
  | eof => exact ⟨h.fine, fun hs => ⟨rfl, (h.server hs).2⟩, h.output, fun hp => ⟨rfl, (h.phase hp).2⟩⟩
  | _ => exact h

theorem ends_takeServer {X : Outside} (e : Env) (d : Driver) (h : Ends X d) : Ends X (d.takeServer cfg W e) := by
  unfold Driver.takeServer
  by_cases ha : d.fromServer ≠ []
  · rw [if_pos ha]
    have hns : d.client.serverClosed ≠ true := fun hs => ha (h.server hs).2
    by_cases hw : d.client.wantsReadTls = true
    · rw [if_pos hw]
      have hw' : (d.client.open? && d.client.inner.conn.wantsRead) = true := hw
      unfold MpcClient.readTls
      rw [if_pos hw']
      simp only [Bool.and_eq_true] at hw'
      have hf : Fine X (d.client.call cfg W (.readTls (d.fromServer.take (e.serverGet + 1)))).1 :=
        h.fine.call hw'.1 _ rfl rfl fun hs => absurd hs hns
      revert hf
      have hph : (d.client.call cfg W (.readTls (d.fromServer.take (e.serverGet + 1)))).1.phase = d.client.phase := rfl
      have hsc : (d.client.call cfg W (.readTls (d.fromServer.take (e.serverGet + 1)))).1.serverClosed = d.client.serverClosed := rfl
      revert hph hsc
      rcases d.client.call cfg W (.readTls (d.fromServer.take (e.serverGet + 1))) with ⟨c, r⟩
      intro hph hsc hf
      cases r <;> exact ⟨hf, fun hs => absurd (hsc.symm.trans hs) hns, fun ho => hph.trans (h.output ho), h.phase⟩
    · rw [if_neg hw]; exact h
  · rw [if_neg ha]
    simp only [ne_eq, Decidable.not_not] at ha
    split
    · rename_i hs
      exact ⟨⟨h.fine.fut, fun hc => ⟨rfl, (h.fine.closing hc).2⟩, h.fine.settled, h.fine.over⟩, fun _ => ⟨hs, ha⟩, h.output, h.phase⟩
    · exact h

theorem takeApp_closed (e : Env) (d : Driver) : (d.takeApp cfg W e).serverClosed = d.serverClosed := by
  unfold Driver.takeApp
  split
  · split
    · rcases d.client.write cfg W (d.appIn.take (e.appGet + 1)) with ⟨c, r⟩
      cases r <;> rfl
    · rfl
  · split <;> rfl

theorem ends_ioTo {X : Outside} (e : Env) (d : Driver) (h : Ends X d) (hn : NoMore d e) : Ends X (d.ioTo cfg W e).1 := by
  unfold Driver.ioTo
  have hn' : NoMore (d.takeApp cfg W e) e := by unfold NoMore; rw [takeApp_closed]; exact hn
  have h1 := ends_takeSocket e _ (ends_takeApp (cfg := cfg) (W := W) e d h) hn'
  revert h1
  rcases (d.takeApp cfg W e).takeSocket e with ⟨d1, err⟩
  intro h1
  cases err with
  | none => exact ends_takeServer e d1 h1
  | some x => exact h1

theorem ends_giveServer {X : Outside} (e : Env) (d : Driver) (h : Ends X d) : Ends X (d.giveServer cfg W e) := by
  unfold Driver.giveServer MpcClient.writeTls
  by_cases hw : (d.client.open? && d.client.inner.conn.wantsWrite) = true
  · rw [if_pos hw]
    simp only [Bool.and_eq_true] at hw
    have hf : Fine X (d.client.call cfg W (.writeTls e.room)).1 :=
      h.fine.call hw.1 _ rfl rfl fun _ ht => ⟨ht.frames, ht.synced, ht.state⟩
    exact ⟨hf, h.server, h.output, h.phase⟩
  · rw [if_neg hw]
    exact ⟨h.fine, h.server, h.output, h.phase⟩

theorem ends_giveSocket {X : Outside} (e : Env) (d : Driver) (h : Ends X d) : Ends X (d.giveSocket e).1 := by
  unfold Driver.giveSocket
  cases e.socketWrite with
  | takes n => exact ⟨h.fine, h.server, h.output, h.phase⟩
  | _ => exact h

theorem ends_giveApp {X : Outside} (e : Env) (d : Driver) (h : Ends X d) : Ends X (d.giveApp cfg W e).1 := by
  unfold Driver.giveApp
  cases e.appSink with
  | takes room =>
    simp only
    by_cases hw : d.client.wantsRead = true
    · rw [if_pos hw]
      have hw' : (d.client.open? && !d.client.inner.conn.io.common.received.isEmpty) = true := hw
      unfold MpcClient.read
      rw [if_pos hw']
      simp only [Bool.and_eq_true] at hw'
      have hf : Fine X (d.client.call cfg W (.readPlaintext room)).1 :=
        h.fine.call hw'.1 _ rfl rfl fun _ ht => ⟨ht.frames, ht.synced, ht.state⟩
      exact ⟨hf, h.server, h.output, h.phase⟩
    · rw [if_neg hw]; exact h
  | _ => exact h

theorem ends_ioFrom {X : Outside} (e : Env) (d : Driver) (h : Ends X d) : Ends X (d.ioFrom cfg W e).1 := by
  unfold Driver.ioFrom
  have h1 := ends_giveSocket e _ (ends_giveServer (cfg := cfg) (W := W) e d h)
  revert h1
  rcases (d.giveServer cfg W e).giveSocket e with ⟨d1, err⟩
  intro h1
  cases err with
  | none => exact ends_giveApp e d1 h1
  | some x => exact h1

theorem ends_pollClient (X : Outside) (e : Env) (d : Driver) (h : Ends X d) : Ends X (d.pollClient cfg X e).1 := by
  unfold Driver.pollClient
  by_cases ho : d.output = true
  · rw [if_pos ho]; exact h
  · rw [if_neg ho]
    have h1 := poll_fine (cfg := cfg) X e.fuel e.ticks d.client h.fine
    revert h1
    rcases d.client.poll cfg X e.fuel e.ticks with ⟨c, r⟩
    intro h1
    have hs : c.serverClosed = true → d.serverClosed = true ∧ d.fromServer = [] := fun hs => h.server (h1.server.symm.trans hs)
    cases r with
    | ready => exact ⟨h1.fine, hs, fun _ => h1.ready rfl, fun hp => absurd (h.phase hp).2 ho⟩
    | _ => exact ⟨h1.fine, hs, fun h' => absurd h' ho, h.phase⟩

/-- When `Prover::poll` is ready. -/
theorem ends_poll (X : Outside) (e : Env) (d : Driver) (h : Ends X d) (hn : NoMore d e) : Ends X (d.poll cfg X e).1 ∧
    ((d.poll cfg X e).2 = .ready → (d.poll cfg X e).1.serverClosed = true ∧ (d.poll cfg X e).1.output = true) := by
  unfold Driver.poll
  have h1 := ends_ioTo (cfg := cfg) (W := X.W) e d h hn
  revert h1
  rcases d.ioTo cfg X.W e with ⟨d1, err⟩
  intro h1
  cases err with
  | some x => exact ⟨h1, fun h => (by cases h)⟩
  | none =>
    simp only
    have h2 := ends_pollClient (cfg := cfg) X e d1 h1
    have hnr : (d1.pollClient cfg X e).2 ≠ .ready := by
      unfold Driver.pollClient
      split
      · simp
      · rcases d1.client.poll cfg X e.fuel e.ticks with ⟨c, r⟩
        cases r <;> simp
    revert h2 hnr
    rcases d1.pollClient cfg X e with ⟨d2, r⟩
    intro h2 hnr
    cases r with
    | pending =>
      simp only
      have h3 := ends_ioFrom (cfg := cfg) (W := X.W) e d2 h2
      revert h3
      rcases d2.ioFrom cfg X.W e with ⟨d3, err⟩
      intro h3
      cases err with
      | some x => exact ⟨h3, fun h => (by cases h)⟩
      | none =>
        refine ⟨h3, ?_⟩
        show Driver.close e d3 = .ready → _
        unfold Driver.close
        split
        · rename_i hb
          simp only [Bool.and_eq_true] at hb
          exact fun _ => hb
        · intro h; cases h
    | ready => exact absurd rfl hnr
    | _ => exact ⟨h2, fun h => (by cases h)⟩

theorem Ends.other {X : Outside} {d : Driver} (h : Ends X d) (p : FPhase) (hp : p ≠ .finishing none ∧ p ≠ .done) :
    Ends X { d with phase := p } :=
  ⟨h.fine, h.server, h.output, fun h' => h'.elim (fun h' => absurd h' hp.1) (fun h' => absurd h' hp.2)⟩

theorem ends_finishing {X : Outside} (e : Env) (d : Driver) (err : Option DErr) (h : Ends X d)
    (hr : err = none → d.serverClosed = true ∧ d.output = true) : Ends X (d.finishing e err).1 := by
  unfold Driver.finishing
  cases e.finish with
  | none =>
    refine ⟨h.fine, h.server, h.output, fun h' => hr ?_⟩
    rcases h' with h' | h' <;> simp at h'
    exact h'
  | some ok =>
    cases err with
    | some x => exact h.other _ ⟨by simp, by simp⟩
    | none =>
      cases ok with
      | false => exact h.other _ ⟨by simp, by simp⟩
      | true => exact ⟨h.fine, h.server, h.output, fun _ => hr rfl⟩

theorem ends_future (X : Outside) (e : Env) (d : Driver) (h : Ends X d) (hn : NoMore d e) : Ends X (d.pollFuture cfg X e).1 := by
  unfold Driver.pollFuture
  cases hp : d.phase with
  | connected =>
    simp only
    obtain ⟨h1, h2⟩ := ends_poll (cfg := cfg) X e d h hn
    revert h1 h2
    rcases d.poll cfg X e with ⟨d1, r⟩
    intro h1 h2
    cases r with
    | ready => exact ends_finishing e d1 _ h1 fun _ => h2 rfl
    | err x => exact ends_finishing e d1 _ h1 fun h => (by cases h)
    | pending => exact h1
    | _ => exact h1.other _ ⟨by simp, by simp⟩
  | finishing err => exact ends_finishing e d err h fun he => h.phase (.inl (by rw [hp, he]))
  | done => exact h.other _ ⟨by simp, by simp⟩
  | error => exact h

/-- The same for all that can happen. -/
def NoMoreAct (d : Driver) : Act → Prop
  | .poll e => NoMore d e
  | _ => True

theorem ends_step (X : Outside) (d : Driver) (a : Act) (h : Ends X d) (hn : NoMoreAct d a) : Ends X (d.step cfg X a).1 := by
  cases a with
  | poll e => exact ends_future X e d h hn
  | appWrite b =>
    show Ends X (if d.appClosed then d else _)
    split
    · exact h
    · exact ⟨h.fine, h.server, h.output, h.phase⟩
  | appClose => exact ⟨h.fine, h.server, h.output, h.phase⟩
  | appRead n => exact ⟨h.fine, h.server, h.output, h.phase⟩
  | setDecrypt b => exact ⟨⟨h.fine.fut, h.fine.closing, h.fine.settled, h.fine.over⟩, h.server, h.output, h.phase⟩

theorem ends_new (X : Outside) (c0 : Conn) (b : Bool) : Ends X (Driver.new c0 b) :=
  ⟨Fine.plain rfl, fun h => (by cases h), fun h => (by cases h), fun h => by rcases h with h | h <;> cases h⟩

end Tlsn.Drive
