import Verif.Drive.Shut
import Verif.Drive.Demo

/-! # Whether the prover gets to its end -/

namespace Tlsn.Drive

open Tlsn.Client

variable {cfg : ClientCfg} {W : World}

/-! ## Bytes after the server's closing alert -/

/-- The server's closing alert was received, and bytes after it are in the pipe. -/
structure Jam (d : Driver) : Prop where
  notify : d.client.inner.conn.io.common.closeNotify = true
  bytes : d.fromServer ≠ []
  server : d.client.serverClosed = false
  phase : d.client.phase.closing = false
  output : d.output = false
  going : d.phase ≠ .finishing none ∧ d.phase ≠ .done

theorem jam_activate (c : MpcClient) (hs : c.serverClosed = false) : (c.activate cfg W).phase.closing = false ∧
    (c.activate cfg W).serverClosed = false ∧
    (c.activate cfg W).inner.conn.io.common.closeNotify = c.inner.conn.io.common.closeNotify := by
  unfold MpcClient.activate
  by_cases hh : c.inner.conn.isHandshaking = true
  · rw [if_pos hh]; exact ⟨rfl, hs, rfl⟩
  · rw [if_neg hh, if_neg (by rw [hs]; simp)]
    split
    · exact ⟨rfl, hs, rfl⟩
    · split <;> exact ⟨rfl, hs, rfl⟩

theorem jam_poll (X : Outside) (f : Nat) (t : Ticks) (c : MpcClient) (hs : c.serverClosed = false) (hp : c.phase.closing = false)
    (hn : c.inner.conn.io.common.closeNotify = true) : (c.poll cfg X f t).1.serverClosed = false ∧
    (c.poll cfg X f t).1.phase.closing = false ∧ (c.poll cfg X f t).1.inner.conn.io.common.closeNotify = true ∧
    (c.poll cfg X f t).2 ≠ .ready := by
  induction f generalizing t c with
  | zero => exact ⟨hs, hp, hn, by simp [MpcClient.poll]⟩
  | succ f ih =>
    unfold MpcClient.poll
    cases hph : c.phase with
    | start => exact ih t { c with phase := .busy .start } hs rfl hn
    | active =>
      obtain ⟨h1, h2, h3⟩ := jam_activate (cfg := cfg) (W := X.W) c hs
      exact ih t _ h2 h1 (h3.trans hn)
    | busy fut =>
      simp only
      cases t.fut 0 with
      | none => exact ⟨hs, hp, hn, by simp⟩
      | some n =>
        simp only
        have h1 := (exec_le (cfg := cfg) (W := X.W) n fut c.inner).closeNotify hn
        revert h1
        rcases fut.exec cfg X.W n c.inner with ⟨i, r⟩
        intro h1
        cases r with
        | ok =>
          simp only
          rw [if_neg (by rw [hs]; simp)]
          exact ⟨hs, rfl, h1, by simp⟩
        | _ => exact ⟨hs, rfl, h1, by simp [badEnd, MpcClient.failed]⟩
    | error => exact ⟨hs, rfl, hn, by simp [MpcClient.failed]⟩
    | _ => rw [hph] at hp; cases hp

theorem jam_takeApp (e : Env) (d : Driver) (h : Jam d) : Jam (d.takeApp cfg W e) := by
  unfold Driver.takeApp
  by_cases ha : d.appIn ≠ []
  · rw [if_pos ha]
    by_cases hw : d.client.wantsWrite = true
    · rw [if_pos hw]
      have hw' : (d.client.open? && !d.client.inner.conn.io.common.sendable.isFull) = true := hw
      unfold MpcClient.write
      rw [if_pos hw']
      have h1 : (d.client.call cfg W (.writePlaintext (d.appIn.take (e.appGet + 1)))).1.inner.conn.io.common.closeNotify = true := by
        show (callWrite _ d.client.inner.conn).1.io.common.closeNotify = true
        unfold callWrite
        split <;> exact h.notify
      have h2 : (d.client.call cfg W (.writePlaintext (d.appIn.take (e.appGet + 1)))).1.serverClosed = false := h.server
      have h3 : (d.client.call cfg W (.writePlaintext (d.appIn.take (e.appGet + 1)))).1.phase.closing = false := h.phase
      revert h1 h2 h3
      rcases d.client.call cfg W (.writePlaintext (d.appIn.take (e.appGet + 1))) with ⟨c, r⟩
      intro h1 h2 h3
      cases r <;> exact ⟨h1, h.bytes, h2, h3, h.output, h.going⟩
    · rw [if_neg hw]; exact h
  · rw [if_neg ha]
    split
    · exact ⟨h.notify, h.bytes, h.server, h.phase, h.output, h.going⟩
    · exact h

theorem jam_takeSocket (e : Env) (d : Driver) (h : Jam d) : Jam (d.takeSocket e).1 := by
  unfold Driver.takeSocket
  cases e.socketRead with
  | data b => exact ⟨h.notify, fun h0 => h.bytes (List.append_eq_nil_iff.1 h0).1, h.server, h.phase, h.output, h.going⟩
  | _ => exact ⟨h.notify, h.bytes, h.server, h.phase, h.output, h.going⟩

theorem jam_takeServer (e : Env) (d : Driver) (h : Jam d) : Jam (d.takeServer cfg W e) := by
  unfold Driver.takeServer
  rw [if_pos h.bytes, if_neg]
  · exact h
  · simp [MpcClient.wantsReadTls, Conn.wantsRead, h.notify]

theorem jam_ioTo (e : Env) (d : Driver) (h : Jam d) : Jam (d.ioTo cfg W e).1 := by
  unfold Driver.ioTo
  have h1 := jam_takeSocket e _ (jam_takeApp (cfg := cfg) (W := W) e d h)
  revert h1
  rcases (d.takeApp cfg W e).takeSocket e with ⟨d1, err⟩
  intro h1
  cases err with
  | none => exact jam_takeServer e d1 h1
  | some x => exact h1

theorem jam_giveServer (e : Env) (d : Driver) (h : Jam d) : Jam (d.giveServer cfg W e) := by
  unfold Driver.giveServer MpcClient.writeTls
  by_cases hw : (d.client.open? && d.client.inner.conn.wantsWrite) = true
  · rw [if_pos hw]; exact ⟨h.notify, h.bytes, h.server, h.phase, h.output, h.going⟩
  · rw [if_neg hw]; exact ⟨h.notify, h.bytes, h.server, h.phase, h.output, h.going⟩

theorem jam_giveSocket (e : Env) (d : Driver) (h : Jam d) : Jam (d.giveSocket e).1 := by
  unfold Driver.giveSocket
  cases e.socketWrite <;> exact ⟨h.notify, h.bytes, h.server, h.phase, h.output, h.going⟩

theorem jam_giveApp (e : Env) (d : Driver) (h : Jam d) : Jam (d.giveApp cfg W e).1 := by
  unfold Driver.giveApp
  cases e.appSink with
  | takes room =>
    simp only
    split
    · unfold MpcClient.read
      by_cases hw : (d.client.open? && !d.client.inner.conn.io.common.received.isEmpty) = true
      · rw [if_pos hw]; exact ⟨h.notify, h.bytes, h.server, h.phase, h.output, h.going⟩
      · rw [if_neg hw]; exact ⟨h.notify, h.bytes, h.server, h.phase, h.output, h.going⟩
    · exact h
  | _ => exact h

theorem jam_ioFrom (e : Env) (d : Driver) (h : Jam d) : Jam (d.ioFrom cfg W e).1 := by
  unfold Driver.ioFrom
  have h1 := jam_giveSocket e _ (jam_giveServer (cfg := cfg) (W := W) e d h)
  revert h1
  rcases (d.giveServer cfg W e).giveSocket e with ⟨d1, err⟩
  intro h1
  cases err with
  | none => exact jam_giveApp e d1 h1
  | some x => exact h1

theorem jam_pollClient (X : Outside) (e : Env) (d : Driver) (h : Jam d) : Jam (d.pollClient cfg X e).1 := by
  unfold Driver.pollClient
  rw [if_neg (by rw [h.output]; simp)]
  obtain ⟨h1, h2, h3, h4⟩ := jam_poll (cfg := cfg) X e.fuel e.ticks d.client h.server h.phase h.notify
  revert h1 h2 h3 h4
  rcases d.client.poll cfg X e.fuel e.ticks with ⟨c, r⟩
  intro h1 h2 h3 h4
  cases r with
  | ready => exact absurd rfl h4
  | _ => exact ⟨h3, h.bytes, h1, h2, h.output, h.going⟩

theorem jam_poll' (X : Outside) (e : Env) (d : Driver) (h : Jam d) : Jam (d.poll cfg X e).1 ∧ (d.poll cfg X e).2 ≠ .ready := by
  unfold Driver.poll
  have h1 := jam_ioTo (cfg := cfg) (W := X.W) e d h
  revert h1
  rcases d.ioTo cfg X.W e with ⟨d1, err⟩
  intro h1
  cases err with
  | some x => exact ⟨h1, by simp⟩
  | none =>
    simp only
    have h2 := jam_pollClient (cfg := cfg) X e d1 h1
    have hr : (d1.pollClient cfg X e).2 ≠ .ready := by
      unfold Driver.pollClient
      split
      · simp
      · rcases d1.client.poll cfg X e.fuel e.ticks with ⟨c, r⟩
        cases r <;> simp
    revert h2 hr
    rcases d1.pollClient cfg X e with ⟨d2, r⟩
    intro h2 hr
    cases r with
    | pending =>
      simp only
      have h3 := jam_ioFrom (cfg := cfg) (W := X.W) e d2 h2
      revert h3
      rcases d2.ioFrom cfg X.W e with ⟨d3, err⟩
      intro h3
      cases err with
      | some x => exact ⟨h3, by simp⟩
      | none =>
        refine ⟨h3, ?_⟩
        simp only
        unfold Driver.close
        rw [h3.output]
        simp
    | ready => exact absurd rfl hr
    | _ => exact ⟨h2, by simp⟩

theorem jam_finishing (e : Env) (d : Driver) (err : DErr) (h : Jam d) : Jam (d.finishing e (some err)).1 ∧
    (d.finishing e (some err)).2 ≠ .committed := by
  unfold Driver.finishing
  cases e.finish with
  | none => exact ⟨⟨h.notify, h.bytes, h.server, h.phase, h.output, ⟨by simp, by simp⟩⟩, by simp⟩
  | some ok => exact ⟨⟨h.notify, h.bytes, h.server, h.phase, h.output, ⟨by simp, by simp⟩⟩, by simp⟩

theorem jam_step (X : Outside) (d : Driver) (a : Act) (h : Jam d) : Jam (d.step cfg X a).1 ∧ (d.step cfg X a).2 ≠ .committed := by
  cases a with
  | poll e =>
    show Jam (d.pollFuture cfg X e).1 ∧ (d.pollFuture cfg X e).2 ≠ .committed
    unfold Driver.pollFuture
    cases hp : d.phase with
    | connected =>
      simp only
      obtain ⟨h1, h2⟩ := jam_poll' (cfg := cfg) X e d h
      revert h1 h2
      rcases d.poll cfg X e with ⟨d1, r⟩
      intro h1 h2
      cases r with
      | ready => exact absurd rfl h2
      | err x => exact jam_finishing e d1 x h1
      | pending => exact ⟨h1, by simp⟩
      | _ => exact ⟨⟨h1.notify, h1.bytes, h1.server, h1.phase, h1.output, ⟨by simp, by simp⟩⟩, by simp⟩
    | finishing err =>
      cases err with
      | none => exact absurd hp h.going.1
      | some x => exact jam_finishing e d x h
    | done => exact absurd hp h.going.2
    | error => exact ⟨h, by simp⟩
  | appWrite b =>
    refine ⟨?_, by simp [Driver.step]⟩
    show Jam (if d.appClosed then d else _)
    split
    · exact h
    · exact ⟨h.notify, h.bytes, h.server, h.phase, h.output, h.going⟩
  | _ => exact ⟨⟨h.notify, h.bytes, h.server, h.phase, h.output, h.going⟩, by simp [Driver.step]⟩

/-! ## An application that is gone -/

/-- Application data is waiting for the application. -/
structure Clog (d : Driver) : Prop where
  data : d.client.inner.conn.io.common.received.chunks ≠ []
  over : d.client.phase.over = false
  output : d.output = false
  going : d.phase ≠ .finishing none ∧ d.phase ≠ .done

theorem clog_activate (c : MpcClient) : (c.activate cfg W).phase.over = false ∧
    (c.activate cfg W).inner.conn.io.common.received = c.inner.conn.io.common.received := by
  unfold MpcClient.activate
  repeat' split
  all_goals exact ⟨rfl, rfl⟩

theorem ne_of_prefix {α : Type} {a b : List α} (h : a <+: b) (ha : a ≠ []) : b ≠ [] := by
  rintro rfl
  exact ha (List.prefix_nil.1 h)

theorem clog_poll (X : Outside) (f : Nat) (t : Ticks) (c : MpcClient) (hp : c.phase.over = false)
    (hn : c.inner.conn.io.common.received.chunks ≠ []) : (c.poll cfg X f t).1.phase.over = false ∧
    (c.poll cfg X f t).1.inner.conn.io.common.received.chunks ≠ [] ∧ (c.poll cfg X f t).2 ≠ .ready := by
  induction f generalizing t c with
  | zero => exact ⟨hp, hn, by simp [MpcClient.poll]⟩
  | succ f ih =>
    unfold MpcClient.poll
    cases hph : c.phase with
    | start => exact ih t { c with phase := .busy .start } rfl hn
    | active =>
      obtain ⟨h1, h2⟩ := clog_activate (cfg := cfg) (W := X.W) c
      exact ih t _ h1 (by rw [h2]; exact hn)
    | closeActive => exact ih t { c with phase := .closeBusy .run } rfl hn
    | busy fut =>
      simp only
      cases t.fut 0 with
      | none => exact ⟨hp, hn, by simp⟩
      | some n =>
        simp only
        have h1 := ne_of_prefix (exec_le (cfg := cfg) (W := X.W) n fut c.inner).received hn
        revert h1
        rcases fut.exec cfg X.W n c.inner with ⟨i, r⟩
        intro h1
        cases r with
        | ok =>
          simp only
          split
          · exact ih t.next { c with phase := .active, inner := i } rfl h1
          · exact ⟨rfl, h1, by simp⟩
        | _ => exact ⟨rfl, h1, by simp [badEnd, MpcClient.failed]⟩
    | closeBusy fut =>
      simp only
      cases t.fut 0 with
      | none => exact ⟨hp, hn, by simp⟩
      | some n =>
        simp only
        have h1 := ne_of_prefix (exec_le (cfg := cfg) (W := X.W) n fut c.inner).received hn
        revert h1
        rcases fut.exec cfg X.W n c.inner with ⟨i, r⟩
        intro h1
        cases r with
        | ok =>
          simp only
          rw [if_neg]
          · exact ⟨rfl, h1, by simp⟩
          · have h2 : i.conn.io.common.received.isEmpty = false := by
              unfold VecBuf.isEmpty
              cases hc : i.conn.io.common.received.chunks with
              | nil => exact absurd hc h1
              | cons => rfl
            unfold Inner.layerEmpty
            rw [h2]
            simp
        | _ => exact ⟨rfl, h1, by simp [badEnd, MpcClient.failed]⟩
    | error => exact ⟨rfl, hn, by simp [MpcClient.failed]⟩
    | _ => rw [hph] at hp; cases hp

theorem clog_takeApp (e : Env) (d : Driver) (h : Clog d) : Clog (d.takeApp cfg W e) := by
  unfold Driver.takeApp
  by_cases ha : d.appIn ≠ []
  · rw [if_pos ha]
    by_cases hw : d.client.wantsWrite = true
    · rw [if_pos hw]
      have hw' : (d.client.open? && !d.client.inner.conn.io.common.sendable.isFull) = true := hw
      unfold MpcClient.write
      rw [if_pos hw']
      have h1 : (d.client.call cfg W (.writePlaintext (d.appIn.take (e.appGet + 1)))).1.inner.conn.io.common.received.chunks ≠ [] := by
        show (callWrite _ d.client.inner.conn).1.io.common.received.chunks ≠ []
        unfold callWrite
        split <;> exact h.data
      have h3 : (d.client.call cfg W (.writePlaintext (d.appIn.take (e.appGet + 1)))).1.phase.over = false := h.over
      revert h1 h3
      rcases d.client.call cfg W (.writePlaintext (d.appIn.take (e.appGet + 1))) with ⟨c, r⟩
      intro h1 h3
      cases r <;> exact ⟨h1, h3, h.output, h.going⟩
    · rw [if_neg hw]; exact h
  · rw [if_neg ha]
    split
    · exact ⟨h.data, h.over, h.output, h.going⟩
    · exact h

theorem clog_takeSocket (e : Env) (d : Driver) (h : Clog d) : Clog (d.takeSocket e).1 := by
  unfold Driver.takeSocket
  cases e.socketRead with
  | data b => exact ⟨h.data, h.over, h.output, h.going⟩
  | _ => exact ⟨h.data, h.over, h.output, h.going⟩

theorem clog_takeServer (e : Env) (d : Driver) (h : Clog d) : Clog (d.takeServer cfg W e) := by
  unfold Driver.takeServer
  split
  · split
    · unfold MpcClient.readTls
      by_cases hw : (d.client.open? && d.client.inner.conn.wantsRead) = true
      · rw [if_pos hw]; exact ⟨h.data, h.over, h.output, h.going⟩
      · rw [if_neg hw]; exact ⟨h.data, h.over, h.output, h.going⟩
    · exact h
  · split <;> exact ⟨h.data, h.over, h.output, h.going⟩

theorem clog_ioTo (e : Env) (d : Driver) (h : Clog d) : Clog (d.ioTo cfg W e).1 := by
  unfold Driver.ioTo
  have h1 := clog_takeSocket e _ (clog_takeApp (cfg := cfg) (W := W) e d h)
  revert h1
  rcases (d.takeApp cfg W e).takeSocket e with ⟨d1, err⟩
  intro h1
  cases err with
  | none => exact clog_takeServer e d1 h1
  | some x => exact h1

theorem clog_giveServer (e : Env) (d : Driver) (h : Clog d) : Clog (d.giveServer cfg W e) := by
  unfold Driver.giveServer MpcClient.writeTls
  by_cases hw : (d.client.open? && d.client.inner.conn.wantsWrite) = true
  · rw [if_pos hw]; exact ⟨h.data, h.over, h.output, h.going⟩
  · rw [if_neg hw]; exact ⟨h.data, h.over, h.output, h.going⟩

theorem clog_giveSocket (e : Env) (d : Driver) (h : Clog d) : Clog (d.giveSocket e).1 := by
  unfold Driver.giveSocket
  cases e.socketWrite <;> exact ⟨h.data, h.over, h.output, h.going⟩

/-- Nothing goes to the application. -/
def Env.mute (e : Env) : Prop := ∀ n, e.appSink ≠ .takes n

theorem clog_giveApp (e : Env) (he : e.mute) (d : Driver) (h : Clog d) : Clog (d.giveApp cfg W e).1 := by
  unfold Driver.giveApp
  cases hs : e.appSink with
  | takes room => exact absurd hs (he room)
  | _ => exact h

theorem clog_ioFrom (e : Env) (he : e.mute) (d : Driver) (h : Clog d) : Clog (d.ioFrom cfg W e).1 := by
  unfold Driver.ioFrom
  have h1 := clog_giveSocket e _ (clog_giveServer (cfg := cfg) (W := W) e d h)
  revert h1
  rcases (d.giveServer cfg W e).giveSocket e with ⟨d1, err⟩
  intro h1
  cases err with
  | none => exact clog_giveApp e he d1 h1
  | some x => exact h1

theorem clog_pollClient (X : Outside) (e : Env) (d : Driver) (h : Clog d) : Clog (d.pollClient cfg X e).1 := by
  unfold Driver.pollClient
  rw [if_neg (by rw [h.output]; simp)]
  obtain ⟨h1, h2, h3⟩ := clog_poll (cfg := cfg) X e.fuel e.ticks d.client h.over h.data
  revert h1 h2 h3
  rcases d.client.poll cfg X e.fuel e.ticks with ⟨c, r⟩
  intro h1 h2 h3
  cases r with
  | ready => exact absurd rfl h3
  | _ => exact ⟨h2, h1, h.output, h.going⟩

theorem clog_poll' (X : Outside) (e : Env) (he : e.mute) (d : Driver) (h : Clog d) : Clog (d.poll cfg X e).1 ∧ (d.poll cfg X e).2 ≠ .ready := by
  unfold Driver.poll
  have h1 := clog_ioTo (cfg := cfg) (W := X.W) e d h
  revert h1
  rcases d.ioTo cfg X.W e with ⟨d1, err⟩
  intro h1
  cases err with
  | some x => exact ⟨h1, by simp⟩
  | none =>
    simp only
    have h2 := clog_pollClient (cfg := cfg) X e d1 h1
    have hr : (d1.pollClient cfg X e).2 ≠ .ready := by
      unfold Driver.pollClient
      split
      · simp
      · rcases d1.client.poll cfg X e.fuel e.ticks with ⟨c, r⟩
        cases r <;> simp
    revert h2 hr
    rcases d1.pollClient cfg X e with ⟨d2, r⟩
    intro h2 hr
    cases r with
    | pending =>
      simp only
      have h3 := clog_ioFrom (cfg := cfg) (W := X.W) e he d2 h2
      revert h3
      rcases d2.ioFrom cfg X.W e with ⟨d3, err⟩
      intro h3
      cases err with
      | some x => exact ⟨h3, by simp⟩
      | none =>
        refine ⟨h3, ?_⟩
        simp only
        unfold Driver.close
        rw [h3.output]
        simp
    | ready => exact absurd rfl hr
    | _ => exact ⟨h2, by simp⟩

theorem clog_finishing (e : Env) (d : Driver) (err : DErr) (h : Clog d) : Clog (d.finishing e (some err)).1 ∧
    (d.finishing e (some err)).2 ≠ .committed := by
  unfold Driver.finishing
  cases e.finish with
  | none => exact ⟨⟨h.data, h.over, h.output, ⟨by simp, by simp⟩⟩, by simp⟩
  | some ok => exact ⟨⟨h.data, h.over, h.output, ⟨by simp, by simp⟩⟩, by simp⟩

theorem clog_step (X : Outside) (d : Driver) (a : Act) (ha : ∀ e, a = .poll e → e.mute) (h : Clog d) : Clog (d.step cfg X a).1 ∧ (d.step cfg X a).2 ≠ .committed := by
  cases a with
  | poll e =>
    show Clog (d.pollFuture cfg X e).1 ∧ (d.pollFuture cfg X e).2 ≠ .committed
    unfold Driver.pollFuture
    cases hp : d.phase with
    | connected =>
      simp only
      obtain ⟨h1, h2⟩ := clog_poll' (cfg := cfg) X e (ha e rfl) d h
      revert h1 h2
      rcases d.poll cfg X e with ⟨d1, r⟩
      intro h1 h2
      cases r with
      | ready => exact absurd rfl h2
      | err x => exact clog_finishing e d1 x h1
      | pending => exact ⟨h1, by simp⟩
      | _ => exact ⟨⟨h1.data, h1.over, h1.output, ⟨by simp, by simp⟩⟩, by simp⟩
    | finishing err =>
      cases err with
      | none => exact absurd hp h.going.1
      | some x => exact clog_finishing e d x h
    | done => exact absurd hp h.going.2
    | error => exact ⟨h, by simp⟩
  | appWrite b =>
    refine ⟨?_, by simp [Driver.step]⟩
    show Clog (if d.appClosed then d else _)
    split
    · exact h
    · exact ⟨h.data, h.over, h.output, h.going⟩
  | _ => exact ⟨⟨h.data, h.over, h.output, h.going⟩, by simp [Driver.step]⟩

/-! ## The theorems -/

/-- C86, a disagreement.  If bytes follow the server's closing alert in the pipe, the future never returns the committed prover,
whatever happens: the bytes are never taken, so that the end of the stream is never seen. -/
theorem C86_trailing_bytes (X : Outside) (c0 : Conn) (b : Bool) (acts : List Act) (he : EofLast acts)
    (hn : ((Driver.new c0 b).run cfg X acts).1.client.inner.conn.io.common.closeNotify = true)
    (hb : ((Driver.new c0 b).run cfg X acts).1.fromServer ≠ []) (more : List Act) :
    ∀ x ∈ (((Driver.new c0 b).run cfg X acts).1.run cfg X more).2, x.2 ≠ .committed := by
  have hends := ends_run (cfg := cfg) X c0 b acts he
  revert hn hb hends
  generalize ((Driver.new c0 b).run cfg X acts).1 = d
  intro hn hb hends
  have hs : d.client.serverClosed = false := by
    by_contra h
    exact hb (hends.server (by simpa using h)).2
  have hc : d.client.phase.closing = false := by
    by_contra h
    have := (hends.fine.closing (by simpa using h)).1
    rw [hs] at this
    cases this
  have ho : d.output = false := by
    by_contra h
    have := hends.output (by simpa using h)
    rw [this] at hc
    cases hc
  have hj : Jam d := ⟨hn, hb, hs, hc, ho, fun h => (by rw [(hends.phase (.inl h)).2] at ho; cases ho),
    fun h => (by rw [(hends.phase (.inr h)).2] at ho; cases ho)⟩
  refine (Sdk.runCalls_inv (step := Driver.step cfg X) (P := fun d l => Jam d ∧ ∀ x ∈ l, x.2 ≠ Drive.Reply.committed) ⟨hj, by simp⟩ (fun d l a h => ?_) more).2
  obtain ⟨h1, h2⟩ := jam_step (cfg := cfg) X d a h.1
  refine ⟨h1, fun x hx => ?_⟩
  rcases List.mem_append.1 hx with hx | hx
  · exact h.2 x hx
  · rw [List.mem_singleton] at hx
    rw [hx]
    exact h2

/-- C86, a disagreement.  If decrypted data is waiting and the application takes no more, because it has dropped its connection, the
future never returns the committed prover. -/
theorem C86_application_gone (X : Outside) (c0 : Conn) (b : Bool) (acts : List Act) (he : EofLast acts)
    (hn : ((Driver.new c0 b).run cfg X acts).1.client.inner.conn.io.common.received.chunks ≠ []) (more : List Act)
    (hm : ∀ e, Act.poll e ∈ more → ∀ n, e.appSink ≠ .takes n) :
    ∀ x ∈ (((Driver.new c0 b).run cfg X acts).1.run cfg X more).2, x.2 ≠ .committed := by
  have hends := ends_run (cfg := cfg) X c0 b acts he
  revert hn hends
  generalize ((Driver.new c0 b).run cfg X acts).1 = d
  intro hn hends
  have hc : d.client.phase.over = false := by
    by_contra h
    have := (hends.fine.over (by simpa using h)).1
    unfold Inner.layerEmpty VecBuf.isEmpty at this
    simp only [Bool.and_eq_true] at this
    exact hn (List.isEmpty_iff.1 this.1)
  have ho : d.output = false := by
    by_contra h
    have := hends.output (by simpa using h)
    rw [this] at hc
    cases hc
  have hj : Clog d := ⟨hn, hc, ho, fun h => (by rw [(hends.phase (.inl h)).2] at ho; cases ho),
    fun h => (by rw [(hends.phase (.inr h)).2] at ho; cases ho)⟩
  clear hn hends hc ho
  have key : ∀ (more pre : List Act), (∀ e, Act.poll e ∈ more → e.mute) → Clog (d.run cfg X more).1 ∧
      ∀ x ∈ (d.run cfg X more).2, x.2 ≠ .committed := by
    intro more _ hm
    induction more using List.reverseRecOn with
    | nil => exact ⟨hj, fun x hx => (by cases hx)⟩
    | append_singleton l a ih =>
      obtain ⟨h1, h2⟩ := ih fun e he => hm e (List.mem_append_left _ he)
      obtain ⟨h3, h4⟩ := clog_step (cfg := cfg) X (d.run cfg X l).1 a (fun e he => hm e (by rw [he]; simp)) h1
      have hsn : d.run cfg X (l ++ [a]) = (((d.run cfg X l).1.step cfg X a).1, (d.run cfg X l).2 ++ [(a, ((d.run cfg X l).1.step cfg X a).2)]) :=
        Sdk.runCalls_snoc _ _
      rw [hsn]
      refine ⟨h3, fun x hx => ?_⟩
      rcases List.mem_append.1 hx with hx | hx
      · exact h2 x hx
      · rw [List.mem_singleton] at hx
        rw [hx]
        exact h4
  exact (key more [] hm).2

/-! ## `poll` calls itself -/

/-- What is asked when nothing happens. -/
def Ev.quiet (e : Ev) : Prop := e = .flush (.ok ()) ∨ e = .nextIn (.ok none) ∨ e = .nextOut (.ok none)

/-- The leader has nothing to do, now and as long as nothing happens. -/
structure Idle (W : World) (log : List Ev) : Prop where
  flush : ∀ more, (∀ e ∈ more, Ev.quiet e) → W.flush (log ++ more) = .ok ()
  nextIn : ∀ more, (∀ e ∈ more, Ev.quiet e) → W.nextIn (log ++ more) = .ok none
  nextOut : ∀ more, (∀ e ∈ more, Ev.quiet e) → W.nextOut (log ++ more) = .ok none

theorem Idle.more {log : List Ev} (h : Idle W log) (l : List Ev) (hl : ∀ e ∈ l, Ev.quiet e) : Idle W (log ++ l) := by
  have : ∀ more : List Ev, (∀ e ∈ more, Ev.quiet e) → ∀ e ∈ l ++ more, Ev.quiet e := fun more hm e he =>
    (List.mem_append.1 he).elim (hl e) (hm e)
  exact ⟨fun m hm => by rw [List.append_assoc]; exact h.flush _ (this m hm),
    fun m hm => by rw [List.append_assoc]; exact h.nextIn _ (this m hm),
    fun m hm => by rw [List.append_assoc]; exact h.nextOut _ (this m hm)⟩

/-- The connection waits for the server during the handshake. -/
structure Waits (W : World) (c : Conn) : Prop where
  tidy : Tidy c
  maySend : c.io.common.maySend = false
  idle : Idle W c.io.common.log

def quietLog : List Ev := [.flush (.ok ()), .nextIn (.ok none), .nextOut (.ok none)]

theorem quietLog_quiet : ∀ e ∈ quietLog, Ev.quiet e := by
  intro e he
  simp only [quietLog, List.mem_cons, List.not_mem_nil, or_false] at he
  exact he

/-- Nothing happens. -/
theorem waits_process (n : Nat) (c : Conn) (h : Waits W c) : c.step cfg W (.process (n + 1)) =
    ({ c with io := { c.io with common := { c.io.common with log := c.io.common.log ++ quietLog } } },
      .io c.io.common.sendableTls.len c.io.common.received.len) := by
  obtain ⟨s, hs⟩ := h.tidy.state
  have h1 := h.idle.flush [] (by simp)
  rw [List.append_nil] at h1
  have h2 := h.idle.nextIn [.flush (.ok ())] (by intro e he; exact quietLog_quiet e (by simp [quietLog, List.mem_singleton.1 he]))
  have h3 := h.idle.nextOut [.flush (.ok ()), .nextIn (.ok none)] (by
    intro e he
    simp only [List.mem_cons, List.not_mem_nil, or_false] at he
    exact quietLog_quiet e (by simp [quietLog]; rcases he with he | he <;> simp [he]))
  show callProcess cfg W (n + 1) c = _
  have hb : processBody cfg W (n + 1) s c.io =
      ({ c.io with common := { c.io.common with log := c.io.common.log ++ quietLog } }, .ok (.ok s)) := by
    simp [processBody, bind, M.bind, M.get, h.tidy.synced, lift, flushPlaintext, h.maySend, pure, h.tidy.frames, frameLoop, ask, h1, drainIn, h2, drainOut, h3, quietLog]
  unfold callProcess
  rw [hs]
  simp only [hb]

theorem Waits.next {c : Conn} (h : Waits W c) :
    Waits W { c with io := { c.io with common := { c.io.common with log := c.io.common.log ++ quietLog } } } :=
  ⟨⟨h.tidy.frames, h.tidy.synced, h.tidy.state⟩, h.maySend, h.idle.more _ quietLog_quiet⟩

theorem waits_run (n : Nat) (i : Inner) (h : Waits W i.conn) : (runFut cfg W (n + 1) i).2 = .ok ∧
    Waits W (runFut cfg W (n + 1) i).1.conn ∧ (runFut cfg W (n + 1) i).1.conn.isHandshaking = i.conn.isHandshaking := by
  have h1 := waits_process (cfg := cfg) n i.conn h
  have hc1 : i.call cfg W (.process (n + 1)) = ((i.call cfg W (.process (n + 1))).1, .io i.conn.io.common.sendableTls.len i.conn.io.common.received.len) := by
    rw [← show (i.call cfg W (.process (n + 1))).2 = .io _ _ from (congrArg Prod.snd h1)]
  have e1 : (i.call cfg W (.process (n + 1))).1.conn = _ := congrArg Prod.fst h1
  revert hc1 e1
  generalize (i.call cfg W (.process (n + 1))).1 = j
  intro hc1 e1
  have hw : Waits W j.conn := by rw [e1]; exact h.next
  have h2 := waits_process (cfg := cfg) n j.conn hw
  have hc2 : j.call cfg W (.process (n + 1)) = ((j.call cfg W (.process (n + 1))).1, .io i.conn.io.common.sendableTls.len i.conn.io.common.received.len) := by
    rw [← show (j.call cfg W (.process (n + 1))).2 = .io i.conn.io.common.sendableTls.len i.conn.io.common.received.len from
      (congrArg Prod.snd h2).trans (by rw [e1])]
  have e2 : (j.call cfg W (.process (n + 1))).1.conn = _ := congrArg Prod.fst h2
  have hr : runFut cfg W (n + 1) i = ((j.call cfg W (.process (n + 1))).1, .ok) := by
    unfold runFut
    rw [hc1]
    simp only
    unfold runLoop
    rw [hc2]
    simp
  rw [hr]
  refine ⟨rfl, ?_, ?_⟩
  · show Waits W (j.call cfg W (.process (n + 1))).1.conn
    rw [e2]; exact hw.next
  · show (j.call cfg W (.process (n + 1))).1.conn.isHandshaking = _
    rw [e2, e1]; rfl

theorem waits_poll (X : Outside) (f : Nat) (t : Ticks) (c : MpcClient) (ht : ∀ k, ∃ n, t.fut k = some (n + 1)) (hs : c.serverClosed = true)
    (hh : c.inner.conn.isHandshaking = true) (hw : Waits X.W c.inner.conn) (hp : c.phase = .active ∨ c.phase = .busy .run) :
    (c.poll cfg X f t).2 = .overflow := by
  induction f generalizing t c with
  | zero => rfl
  | succ f ih =>
    unfold MpcClient.poll
    rcases hp with hp | hp
    · rw [hp]
      simp only
      have ha : c.activate cfg X.W = { c with phase := .busy .run } := by
        unfold MpcClient.activate
        rw [if_pos hh]
      rw [ha]
      exact ih t { c with phase := .busy .run } ht hs hh hw (.inr rfl)
    · rw [hp]
      simp only
      obtain ⟨n, hn⟩ := ht 0
      rw [hn]
      obtain ⟨h1, h2, h3⟩ := waits_run (cfg := cfg) n c.inner hw
      have hx : Fut.exec cfg X.W (n + 1) .run c.inner = runFut cfg X.W (n + 1) c.inner := rfl
      simp only [hx]
      revert h1 h2 h3
      rcases runFut cfg X.W (n + 1) c.inner with ⟨i, r⟩
      intro h1 h2 h3
      have h1 : r = .ok := h1
      subst h1
      simp only
      rw [if_pos hs]
      exact ih t.next { c with phase := .active, inner := i } (fun k => ht (k + 1)) hs (h3.trans hh) h2 (.inl rfl)

theorem waits_takeApp (e : Env) (d : Driver) (h : Waits W d.client.inner.conn) : Waits W (d.takeApp cfg W e).client.inner.conn ∧
    (d.takeApp cfg W e).client.inner.conn.isHandshaking = d.client.inner.conn.isHandshaking ∧
    (d.takeApp cfg W e).client.phase = d.client.phase ∧ (d.takeApp cfg W e).fromServer = d.fromServer ∧
    (d.takeApp cfg W e).output = d.output := by
  unfold Driver.takeApp
  by_cases ha : d.appIn ≠ []
  · rw [if_pos ha]
    by_cases hw : d.client.wantsWrite = true
    · rw [if_pos hw]
      have hw' : (d.client.open? && !d.client.inner.conn.io.common.sendable.isFull) = true := hw
      unfold MpcClient.write
      rw [if_pos hw']
      have h1 : Waits W (d.client.call cfg W (.writePlaintext (d.appIn.take (e.appGet + 1)))).1.inner.conn ∧
          (d.client.call cfg W (.writePlaintext (d.appIn.take (e.appGet + 1)))).1.inner.conn.isHandshaking =
            d.client.inner.conn.isHandshaking := by
        show Waits W (callWrite _ d.client.inner.conn).1 ∧ (callWrite _ d.client.inner.conn).1.isHandshaking = _
        unfold callWrite
        split
        · exact ⟨h, rfl⟩
        · exact ⟨⟨⟨h.tidy.frames, h.tidy.synced, h.tidy.state⟩, h.maySend, h.idle⟩, rfl⟩
      have h2 : (d.client.call cfg W (.writePlaintext (d.appIn.take (e.appGet + 1)))).1.phase = d.client.phase := rfl
      revert h1 h2
      rcases d.client.call cfg W (.writePlaintext (d.appIn.take (e.appGet + 1))) with ⟨c, r⟩
      intro h1 h2
      cases r <;> exact ⟨h1.1, h1.2, h2, rfl, rfl⟩
    · rw [if_neg hw]; exact ⟨h, rfl, rfl, rfl, rfl⟩
  · rw [if_neg ha]
    split <;> exact ⟨h, rfl, rfl, rfl, rfl⟩

/-- C86, a disagreement.  If the server closes the connection during the handshake while the leader has nothing to do, and the futures
of the connection are ready at once, `poll` calls itself without end: it does not return, whatever the depth. -/
theorem C86_eof_in_handshake (X : Outside) (d : Driver) (hp : d.phase = .connected) (ho : d.output = false) (ha : d.client.phase = .active)
    (hf : d.fromServer = []) (hh : d.client.inner.conn.isHandshaking = true) (hw : Waits X.W d.client.inner.conn) (e : Env)
    (he : e.socketRead = .eof) (ht : ∀ k, ∃ n, e.ticks.fut k = some (n + 1)) : (d.step cfg X (.poll e)).2 = .overflow := by
  show (d.pollFuture cfg X e).2 = .overflow
  unfold Driver.pollFuture
  rw [hp]
  simp only
  suffices h : (d.poll cfg X e).2 = .overflow by
    revert h
    rcases d.poll cfg X e with ⟨d1, r⟩
    intro h
    have h : r = .overflow := h
    subst h
    rfl
  obtain ⟨h1, h2, h3, h4, h5⟩ := waits_takeApp (cfg := cfg) e d hw
  have hto : d.ioTo cfg X.W e = ({ d.takeApp cfg X.W e with
      serverClosed := true, client := { (d.takeApp cfg X.W e).client with serverClosed := true } }, none) := by
    unfold Driver.ioTo Driver.takeSocket
    rw [he]
    simp only
    unfold Driver.takeServer
    rw [if_neg (by simp [h4, hf])]
    rfl
  unfold Driver.poll
  rw [hto]
  simp only
  have hover := waits_poll (cfg := cfg) X e.fuel e.ticks { (d.takeApp cfg X.W e).client with serverClosed := true } ht rfl (h2.trans hh) h1
    (.inl (h3.trans ha))
  have hpc : (Driver.pollClient cfg X e { d.takeApp cfg X.W e with
      serverClosed := true, client := { (d.takeApp cfg X.W e).client with serverClosed := true } }).2 = .overflow := by
    unfold Driver.pollClient
    rw [if_neg (by simp [h5, ho])]
    simp only
    revert hover
    rcases MpcClient.poll cfg X e.fuel e.ticks { (d.takeApp cfg X.W e).client with serverClosed := true } with ⟨c, r⟩
    intro hover
    have h : r = .overflow := hover
    subst h
    rfl
  revert hpc
  rcases Driver.pollClient cfg X e { d.takeApp cfg X.W e with
      serverClosed := true, client := { (d.takeApp cfg X.W e).client with serverClosed := true } } with ⟨d1, r⟩
  intro hpc
  have h : r = .overflow := hpc
  subst h
  rfl

/-- So many calls of `poll` are enough. -/
def Phase.depth (closed : Bool) : Phase → Nat
  | .start => if closed then 5 else 2
  | .busy _ => if closed then 4 else 1
  | .active => if closed then 3 else 2
  | .closeActive => 3
  | .closeBusy _ => 2
  | _ => 1

theorem poll_depth (X : Outside) (f : Nat) (t : Ticks) (c : MpcClient) (hc : c.serverClosed = false ∨ c.inner.conn.isHandshaking = false)
    (hf : c.phase.depth c.serverClosed ≤ f) : (c.poll cfg X f t).2 ≠ .overflow := by
  induction f generalizing t c with
  | zero => cases hp : c.phase <;> rw [hp] at hf <;> simp [Phase.depth] at hf <;> split at hf <;> omega
  | succ f ih =>
    unfold MpcClient.poll
    cases hp : c.phase with
    | start =>
      refine ih t { c with phase := .busy .start } hc ?_
      rw [hp] at hf
      simp only [Phase.depth] at hf ⊢
      split at hf <;> rename_i h <;> simp [h] <;> omega
    | active =>
      rw [hp] at hf
      have hx : (c.activate cfg X.W).serverClosed = c.serverClosed := (activate_flags c).1
      have hd : (c.activate cfg X.W).phase.depth c.serverClosed ≤ f ∧
          (c.serverClosed = false ∨ (c.activate cfg X.W).inner.conn.isHandshaking = false) := by
        unfold MpcClient.activate
        by_cases hh : c.inner.conn.isHandshaking = true
        · rw [if_pos hh]
          have hs : c.serverClosed = false := hc.resolve_right (by rw [hh]; simp)
          simp only [Phase.depth, hs] at hf ⊢
          refine ⟨?_, .inl trivial⟩
          simp at hf ⊢
          omega
        · rw [if_neg hh]
          have hh' : c.inner.conn.isHandshaking = false := by simpa using hh
          by_cases hs : c.serverClosed = true
          · rw [if_pos hs]
            simp only [Phase.depth, hs] at hf ⊢
            simp at hf
            exact ⟨by omega, .inr hh'⟩
          · rw [if_neg hs]
            have hs' : c.serverClosed = false := by simpa using hs
            simp only [Phase.depth, hs'] at hf
            simp at hf
            rw [hs']
            refine ⟨?_, .inl rfl⟩
            split
            · simp [Phase.depth]; omega
            · split <;> simp [Phase.depth] <;> omega
      exact ih t _ (by rw [hx]; exact hd.2) (by rw [hx]; exact hd.1)
    | closeActive =>
      refine ih t { c with phase := .closeBusy .run } hc ?_
      rw [hp] at hf
      simp only [Phase.depth] at hf ⊢
      omega
    | busy fut =>
      simp only
      cases t.fut 0 with
      | none => simp
      | some n =>
        simp only
        have h1 := le_handshaking (exec_le (cfg := cfg) (W := X.W) n fut c.inner)
        revert h1
        rcases fut.exec cfg X.W n c.inner with ⟨i, r⟩
        intro h1
        cases r with
        | ok =>
          simp only
          by_cases hs : c.serverClosed = true
          · rw [if_pos hs]
            have hh := hc.resolve_left (by rw [hs]; simp)
            refine ih t.next { c with phase := .active, inner := i } (.inr (h1 hh)) ?_
            rw [hp] at hf
            simp only [Phase.depth, hs] at hf ⊢
            simp at hf ⊢
            omega
          · rw [if_neg hs]; simp
        | _ => simp [MpcClient.failed, badEnd]
    | closeBusy fut =>
      simp only
      cases t.fut 0 with
      | none => simp
      | some n =>
        simp only
        have h1 := le_handshaking (exec_le (cfg := cfg) (W := X.W) n fut c.inner)
        revert h1
        rcases fut.exec cfg X.W n c.inner with ⟨i, r⟩
        intro h1
        cases r with
        | ok =>
          simp only
          split
          · split
            · refine ih t.next { c with phase := .finalizing, inner := i } (hc.imp_right h1) ?_
              rw [hp] at hf
              simp only [Phase.depth] at hf ⊢
              omega
            · simp [MpcClient.failed]
          · simp
        | _ => simp [MpcClient.failed, badEnd]
    | finalizing =>
      simp only
      cases t.finalize with
      | none => simp
      | some b => cases b <;> simp [MpcClient.failed]
    | finished => simp [MpcClient.failed]
    | error => simp [MpcClient.failed]

theorem depth_le (b : Bool) (p : Phase) : p.depth b ≤ 5 := by cases b <;> cases p <;> simp [Phase.depth]

/-- Where the client has heard of the end of the stream, the prover has. -/
def Told (d : Driver) : Prop := d.client.serverClosed = true → d.serverClosed = true

theorem poll_server (X : Outside) (f : Nat) (t : Ticks) (c : MpcClient) : (c.poll cfg X f t).1.serverClosed = c.serverClosed := by
  induction f generalizing t c with
  | zero => rfl
  | succ f ih =>
    unfold MpcClient.poll
    cases hp : c.phase with
    | start => exact ih t { c with phase := .busy .start }
    | active => exact (ih t (c.activate cfg X.W)).trans (activate_flags c).1
    | closeActive => exact ih t { c with phase := .closeBusy .run }
    | finalizing =>
      simp only
      cases t.finalize with
      | none => rfl
      | some b => cases b <;> rfl
    | finished => rfl
    | error => rfl
    | busy fut =>
      simp only
      cases t.fut 0 with
      | none => rfl
      | some n =>
        simp only
        rcases fut.exec cfg X.W n c.inner with ⟨i, r⟩
        cases r with
        | ok =>
          simp only
          split
          · exact ih t.next { c with phase := .active, inner := i }
          · rfl
        | _ => rfl
    | closeBusy fut =>
      simp only
      cases t.fut 0 with
      | none => rfl
      | some n =>
        simp only
        rcases fut.exec cfg X.W n c.inner with ⟨i, r⟩
        cases r with
        | ok =>
          simp only
          split
          · split
            · exact ih t.next { c with phase := .finalizing, inner := i }
            · rfl
          · rfl
        | _ => rfl

theorem told_ioTo (e : Env) (d : Driver) (h : Told d) : Told (d.ioTo cfg W e).1 ∧
    (d.ioTo cfg W e).1.client.inner.conn.isHandshaking = d.client.inner.conn.isHandshaking := by
  have h1 : Told (d.takeApp cfg W e) ∧ (d.takeApp cfg W e).client.inner.conn.isHandshaking = d.client.inner.conn.isHandshaking := by
    unfold Driver.takeApp
    by_cases ha : d.appIn ≠ []
    · rw [if_pos ha]
      by_cases hw : d.client.wantsWrite = true
      · rw [if_pos hw]
        have hw' : (d.client.open? && !d.client.inner.conn.io.common.sendable.isFull) = true := hw
        unfold MpcClient.write
        rw [if_pos hw']
        have h1 : (d.client.call cfg W (.writePlaintext (d.appIn.take (e.appGet + 1)))).1.inner.conn.isHandshaking =
            d.client.inner.conn.isHandshaking := by
          show (callWrite _ d.client.inner.conn).1.isHandshaking = _
          unfold callWrite
          split <;> rfl
        have h2 : (d.client.call cfg W (.writePlaintext (d.appIn.take (e.appGet + 1)))).1.serverClosed = d.client.serverClosed := rfl
        revert h1 h2
        rcases d.client.call cfg W (.writePlaintext (d.appIn.take (e.appGet + 1))) with ⟨c, r⟩
        intro h1 h2
        cases r <;> exact ⟨fun hc => h (h2 ▸ hc), h1⟩
      · rw [if_neg hw]; exact ⟨h, rfl⟩
    · rw [if_neg ha]
      split <;> exact ⟨h, rfl⟩
  unfold Driver.ioTo
  revert h1
  generalize d.takeApp cfg W e = d1
  rintro ⟨h1, h2⟩
  have h3 : Told (d1.takeSocket e).1 ∧ (d1.takeSocket e).1.client = d1.client := by
    unfold Driver.takeSocket
    cases e.socketRead with
    | eof => exact ⟨fun _ => rfl, rfl⟩
    | _ => exact ⟨h1, rfl⟩
  revert h3
  rcases d1.takeSocket e with ⟨d2, err⟩
  rintro ⟨h3, h4⟩
  have h4 : d2.client = d1.client := h4
  cases err with
  | some x => exact ⟨h3, (by show d2.client.inner.conn.isHandshaking = _; rw [h4, h2])⟩
  | none =>
    simp only
    rw [← h2, ← h4]
    unfold Driver.takeServer
    by_cases ha : d2.fromServer ≠ []
    · rw [if_pos ha]
      by_cases hw : d2.client.wantsReadTls = true
      · rw [if_pos hw]
        have hw' : (d2.client.open? && d2.client.inner.conn.wantsRead) = true := hw
        unfold MpcClient.readTls
        rw [if_pos hw']
        exact ⟨h3, rfl⟩
      · rw [if_neg hw]; exact ⟨h3, rfl⟩
    · rw [if_neg ha]
      by_cases hs : d2.serverClosed = true
      · rw [if_pos hs]; exact ⟨fun _ => hs, rfl⟩
      · rw [if_neg hs]; exact ⟨h3, rfl⟩

theorem told_ioFrom (e : Env) (d : Driver) (h : Told d) : Told (d.ioFrom cfg W e).1 := by
  have h1 : Told (d.giveServer cfg W e) := by
    unfold Driver.giveServer MpcClient.writeTls
    by_cases hw : (d.client.open? && d.client.inner.conn.wantsWrite) = true
    · rw [if_pos hw]; exact h
    · rw [if_neg hw]; exact h
  have h2 : Told ((d.giveServer cfg W e).giveSocket e).1 := by
    unfold Driver.giveSocket
    cases e.socketWrite <;> exact h1
  unfold Driver.ioFrom
  revert h2
  rcases (d.giveServer cfg W e).giveSocket e with ⟨d1, err⟩
  intro h2
  cases err with
  | some x => exact h2
  | none =>
    show Told (d1.giveApp cfg W e).1
    unfold Driver.giveApp
    cases e.appSink with
    | takes room =>
      simp only
      split
      · unfold MpcClient.read
        by_cases hw : (d1.client.open? && !d1.client.inner.conn.io.common.received.isEmpty) = true
        · rw [if_pos hw]; exact h2
        · rw [if_neg hw]; exact h2
      · exact h2
    | _ => exact h2

theorem told_finishing (e : Env) (d : Driver) (err : Option DErr) (h : Told d) : Told (d.finishing e err).1 := by
  unfold Driver.finishing
  cases e.finish with
  | none => exact h
  | some ok =>
    cases err with
    | some x => exact h
    | none => cases ok <;> exact h

theorem told_step (X : Outside) (d : Driver) (a : Act) (h : Told d) : Told (d.step cfg X a).1 := by
  cases a with
  | poll e =>
    have h1 : Told (d.poll cfg X e).1 := by
      unfold Driver.poll
      have h1 := (told_ioTo (cfg := cfg) (W := X.W) e d h).1
      revert h1
      rcases d.ioTo cfg X.W e with ⟨d1, err⟩
      intro h1
      cases err with
      | some x => exact h1
      | none =>
        simp only
        have h2 : Told (d1.pollClient cfg X e).1 := by
          unfold Driver.pollClient
          split
          · exact h1
          · have h2 := poll_server (cfg := cfg) X e.fuel e.ticks d1.client
            revert h2
            rcases d1.client.poll cfg X e.fuel e.ticks with ⟨c, r⟩
            intro h2
            cases r <;> exact fun hc => h1 (h2 ▸ hc)
        revert h2
        rcases d1.pollClient cfg X e with ⟨d2, r⟩
        intro h2
        cases r with
        | pending =>
          simp only
          have h3 := told_ioFrom (cfg := cfg) (W := X.W) e d2 h2
          revert h3
          rcases d2.ioFrom cfg X.W e with ⟨d3, err⟩
          intro h3
          cases err <;> exact h3
        | _ => exact h2
    show Told (d.pollFuture cfg X e).1
    unfold Driver.pollFuture
    cases d.phase with
    | connected =>
      simp only
      revert h1
      rcases d.poll cfg X e with ⟨d1, r⟩
      intro h1
      cases r with
      | ready => exact told_finishing e d1 _ h1
      | err x => exact told_finishing e d1 _ h1
      | _ => exact h1
    | finishing err => exact told_finishing e d err h
    | done => exact h
    | error => exact h
  | appWrite b =>
    show Told (if d.appClosed then d else _)
    split <;> exact h
  | _ => exact h

/-- C86.  Outside of that case a poll returns after at most five calls of `poll`: once the handshake is over, or while the server has not
closed the connection.  Missing: that the future ends, which is false (`C86_eof_in_handshake`, `C86_trailing_bytes`,
`C86_application_gone`). -/
theorem C86_returns_partial (X : Outside) (c0 : Conn) (b : Bool) (acts : List Act) (e : Env) (hf : 5 ≤ e.fuel)
    (hc : ((Driver.new c0 b).run cfg X acts).1.client.inner.conn.isHandshaking = false ∨
      ∀ e', Act.poll e' ∈ acts ++ [.poll e] → e'.socketRead ≠ .eof) :
    (((Driver.new c0 b).run cfg X acts).1.step cfg X (.poll e)).2 ≠ .overflow := by
  have ht : Told ((Driver.new c0 b).run cfg X acts).1 :=
    Sdk.runCalls_inv (P := fun d _ => Told d) (fun h => (by cases h)) (fun d _ a h => told_step X d a h) acts
  have hs : ((Driver.new c0 b).run cfg X acts).1.client.inner.conn.isHandshaking = false ∨
      (((Driver.new c0 b).run cfg X acts).1.serverClosed = false ∧ e.socketRead ≠ .eof) := by
    refine hc.imp_right fun h => ⟨?_, h e (by simp)⟩
    by_contra h0
    obtain ⟨e', h1, h2⟩ := closed_run X c0 b acts (by simpa using h0)
    exact h e' (List.mem_append_left _ h1) h2
  clear hc
  revert ht hs
  generalize ((Driver.new c0 b).run cfg X acts).1 = d
  intro ht hs
  show (d.pollFuture cfg X e).2 ≠ .overflow
  have hfin : ∀ (d : Driver) err, (d.finishing e err).2 ≠ .overflow := by
    intro d err
    unfold Driver.finishing
    cases e.finish with
    | none => simp
    | some ok =>
      cases err with
      | some x => simp
      | none => cases ok <;> simp
  have hpoll : (d.poll cfg X e).2 ≠ .overflow := by
    unfold Driver.poll
    obtain ⟨h1, h2⟩ := told_ioTo (cfg := cfg) (W := X.W) e d ht
    have h3 : (d.ioTo cfg X.W e).1.serverClosed = true → d.serverClosed = true ∨ e.socketRead = .eof := ioTo_closed e d
    revert h1 h2 h3
    rcases d.ioTo cfg X.W e with ⟨d1, err⟩
    intro h1 h2 h3
    cases err with
    | some x => simp
    | none =>
      simp only
      have h4 : d1.client.serverClosed = false ∨ d1.client.inner.conn.isHandshaking = false := by
        rcases hs with hs | ⟨hs, hs'⟩
        · exact .inr (h2.trans hs)
        · left
          by_contra h0
          rcases h3 (h1 (by simpa using h0)) with h | h
          · rw [hs] at h; cases h
          · exact hs' h
      have h5 : (d1.pollClient cfg X e).2 ≠ .overflow := by
        unfold Driver.pollClient
        split
        · simp
        · have h5 := poll_depth (cfg := cfg) X e.fuel e.ticks d1.client h4 (Nat.le_trans (depth_le _ _) hf)
          revert h5
          rcases d1.client.poll cfg X e.fuel e.ticks with ⟨c, r⟩
          intro h5
          cases r with
          | overflow => exact absurd rfl h5
          | _ => simp
      revert h5
      rcases d1.pollClient cfg X e with ⟨d2, r⟩
      intro h5
      cases r with
      | pending =>
        simp only
        rcases d2.ioFrom cfg X.W e with ⟨d3, err⟩
        cases err with
        | some x => simp
        | none =>
          simp only
          unfold Driver.close
          split
          · cases e.closeApp with
            | none => simp
            | some b =>
              cases b with
              | false => simp
              | true =>
                cases e.closeSocket with
                | none => simp
                | some b => cases b <;> simp
          · simp
      | overflow => exact absurd rfl h5
      | _ => simp
  unfold Driver.pollFuture
  cases d.phase with
  | connected =>
    simp only
    revert hpoll
    rcases d.poll cfg X e with ⟨d1, r⟩
    intro hpoll
    cases r with
    | ready => exact hfin _ _
    | err x => exact hfin _ _
    | overflow => exact absurd rfl hpoll
    | _ => simp
  | finishing err => exact hfin _ _
  | done => simp
  | error => simp

end Tlsn.Drive
