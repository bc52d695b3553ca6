import Verif.Drive.Props

/-! # The closing alert -/

namespace Tlsn.Drive

open Tlsn.Client

variable {cfg : ClientCfg} {W : World}

/-- How often the closing alert was sent. -/
def notes (trace : List (Call × CReply)) : Nat := trace.countP fun
  | (.sendCloseNotify, _) => true
  | _ => false

theorem notes_calls {S : Call → Prop} (hS : ¬ S .sendCloseNotify) {a b : Conn × List (Call × CReply)} (h : Calls cfg W S a b) :
    notes b.2 = notes a.2 := by
  induction h with
  | refl => rfl
  | @step b k _ hk ih =>
    rw [← ih]
    unfold notes
    rw [List.countP_append]
    cases k with
    | sendCloseNotify => exact absurd hk hS
    | _ => rfl

/-- What a future does about the closing alert. -/
theorem exec_notes {c0 : Conn} (h : Conn.new cfg = .ok c0) (n : Nat) (fut : Fut) (i : Inner) (hr : ∃ l, c0.run cfg W l = i.seen)
    (hh : fut = .clientClose → i.conn.isHandshaking = false) :
    (notes (fut.exec cfg W n i).1.trace = notes i.trace ∧ (fut.exec cfg W n i).1.clientClosed = i.clientClosed) ∨
    (fut = .clientClose ∧ i.clientClosed = false ∧ notes (fut.exec cfg W n i).1.trace = notes i.trace + 1 ∧
      AllSent (fut.exec cfg W n i).1.seen ∧ ((fut.exec cfg W n i).2 = .ok → (fut.exec cfg W n i).1.clientClosed = true)) := by
  have hnp : ¬ IsProcess .sendCloseNotify := by rintro ⟨n, hn⟩; cases hn
  cases fut with
  | start => exact .inl ⟨notes_calls (S := fun k => k = .start) (by simp) (Calls.one (cfg := cfg) (W := W) i _ rfl), rfl⟩
  | run => exact .inl ⟨notes_calls hnp (calls_run n i).1, (calls_run n i).2.1⟩
  | serverClose =>
    left
    show notes (serverCloseFut cfg W n i).1.trace = _ ∧ (serverCloseFut cfg W n i).1.clientClosed = _
    unfold serverCloseFut
    obtain ⟨h1, h2, -⟩ := calls_run (cfg := cfg) (W := W) n i
    revert h1 h2
    rcases runFut cfg W n i with ⟨j, r⟩
    intro h1 h2
    have h1 := notes_calls hnp h1
    cases r with
    | ok => exact ⟨(notes_calls (S := fun k => k = .serverClosed) (by simp) (Calls.one (cfg := cfg) (W := W) j _ rfl)).trans h1, h2⟩
    | _ => exact ⟨h1, h2⟩
  | clientClose =>
    show (notes (clientCloseFut cfg W n i).1.trace = _ ∧ (clientCloseFut cfg W n i).1.clientClosed = _) ∨
      (_ ∧ _ ∧ notes (clientCloseFut cfg W n i).1.trace = _ ∧ AllSent (clientCloseFut cfg W n i).1.seen ∧
        ((clientCloseFut cfg W n i).2 = .ok → (clientCloseFut cfg W n i).1.clientClosed = true))
    unfold clientCloseFut
    obtain ⟨h1, h2, -⟩ := calls_run (cfg := cfg) (W := W) n i
    have h3 := run_sent h n i (runFut cfg W n i).1 hr (hh rfl)
    have h4 : ∃ l, c0.run cfg W l = (runFut cfg W n i).1.seen := h1.ran hr
    revert h1 h2 h3 h4
    rcases runFut cfg W n i with ⟨j, r⟩
    intro h1 h2 h3 h4
    have h1 := notes_calls hnp h1
    cases r with
    | ok =>
      simp only
      by_cases hc : j.clientClosed = true
      · rw [if_pos hc]
        exact .inl ⟨h1, h2⟩
      · rw [if_neg hc]
        right
        have hi : i.clientClosed = false := by rw [← h2]; simpa using hc
        have h5 : notes (j.call cfg W .sendCloseNotify).1.trace = notes i.trace + 1 := by
          have h1 : notes j.trace = notes i.trace := h1
          rw [← h1]
          show notes (j.trace ++ [_]) = notes j.trace + 1
          unfold notes
          rw [List.countP_append]
          rfl
        have h6 : AllSent (j.call cfg W .sendCloseNotify).1.seen :=
          AllSent.still h (h3 rfl) h4 (Calls.one (cfg := cfg) (W := W) j .sendCloseNotify (.inl rfl))
        revert h5 h6
        rcases j.call cfg W .sendCloseNotify with ⟨l, reply⟩
        intro h5 h6
        cases reply with
        | dropped => exact ⟨trivial, hi, h5, h6, fun h => (by cases h)⟩
        | panicked => exact ⟨trivial, hi, h5, h6, fun h => (by cases h)⟩
        | _ => exact ⟨trivial, hi, h5, h6, fun _ => rfl⟩
    | _ => exact .inl ⟨h1, h2⟩

/-- The invariant about the closing alert. -/
structure ShutC (cfg : ClientCfg) (W : World) (c0 : Conn) (c : MpcClient) : Prop where
  ran : ∃ l, c0.run cfg W l = c.inner.seen
  busy : c.phase = .busy .clientClose ∨ c.phase = .closeBusy .clientClose → c.clientWantsClose = true ∧ c.inner.conn.isHandshaking = false
  once : notes c.inner.trace ≤ 1
  closed : notes c.inner.trace ≠ 0 → c.clientWantsClose = true ∧ AllSent c.inner.seen ∧ (c.inner.clientClosed = true ∨ c.phase = .error)

theorem ShutC.to {c0 : Conn} (h : Conn.new cfg = .ok c0) {c : MpcClient} (hs : ShutC cfg W c0 c) (hp : c.phase ≠ .error) (p : Phase)
    (hb : p = .busy .clientClose ∨ p = .closeBusy .clientClose → c.clientWantsClose = true ∧ c.inner.conn.isHandshaking = false)
    {i : Inner} (hc : Calls cfg W (fun k => Still k ∧ k ≠ .sendCloseNotify) c.inner.seen i.seen) (hi : i.clientClosed = c.inner.clientClosed)
    (hih : c.inner.conn.isHandshaking = false → i.conn.isHandshaking = false) :
    ShutC cfg W c0 { c with phase := p, inner := i } := by
  have hn : notes i.trace = notes c.inner.trace := notes_calls (by simp) hc
  have hst : Calls cfg W Still c.inner.seen i.seen := hc.mono fun _ hk => hk.1
  refine ⟨hst.ran hs.ran, fun hb' => ⟨(hb hb').1, hih (hb hb').2⟩, by show notes i.trace ≤ 1; rw [hn]; exact hs.once, fun h0 => ?_⟩
  obtain ⟨h1, h2, h3⟩ := hs.closed (by rw [← hn]; exact h0)
  refine ⟨h1, h2.still h hs.ran hst, .inl ?_⟩
  rcases h3 with h3 | h3
  · exact hi.trans h3
  · exact absurd h3 hp

theorem shut_activate {c0 : Conn} (h : Conn.new cfg = .ok c0) (c : MpcClient) (hs : ShutC cfg W c0 c) (hp : c.phase ≠ .error) :
    ShutC cfg W c0 (c.activate cfg W) ∧ (c.activate cfg W).phase ≠ .error := by
  have same : ∀ p, (p = .busy .clientClose ∨ p = .closeBusy .clientClose → c.clientWantsClose = true ∧ c.inner.conn.isHandshaking = false) →
      ShutC cfg W c0 { c with phase := p } := fun p hb => hs.to h hp p hb (.refl _) rfl id
  unfold MpcClient.activate
  by_cases hh : c.inner.conn.isHandshaking = true
  · rw [if_pos hh]; exact ⟨same _ (by simp), by simp⟩
  · rw [if_neg hh]
    have hh' : c.inner.conn.isHandshaking = false := by simpa using hh
    by_cases hsc : c.serverClosed = true
    · rw [if_pos hsc]; exact ⟨same _ (by simp), by simp⟩
    · rw [if_neg hsc]
      by_cases hw : c.clientWantsClose = true
      · rw [if_pos hw]; exact ⟨same _ fun _ => ⟨hw, hh'⟩, by simp⟩
      · rw [if_neg hw]
        by_cases hd : c.decrypt ≠ c.inner.decrypt
        · rw [if_pos hd]
          exact ⟨hs.to h hp _ (by simp) (Calls.one (cfg := cfg) (W := W) c.inner (.enableDecryption c.decrypt) ⟨.inr ⟨_, rfl⟩, by simp⟩) rfl id,
            by simp⟩
        · rw [if_neg hd]; exact ⟨same _ (by simp), by simp⟩

theorem shut_exec {c0 : Conn} (h : Conn.new cfg = .ok c0) (n : Nat) (fut : Fut) (c : MpcClient) (hs : ShutC cfg W c0 c)
    (hp : c.phase = .busy fut ∨ c.phase = .closeBusy fut) (p : Phase) (hnp : p ≠ .busy .clientClose ∧ p ≠ .closeBusy .clientClose)
    (hok : (fut.exec cfg W n c.inner).2 = .ok ∨ p = .error) :
    ShutC cfg W c0 { c with phase := p, inner := (fut.exec cfg W n c.inner).1 } := by
  have hne : c.phase ≠ .error := by rcases hp with hp | hp <;> rw [hp] <;> simp
  have hcl := (calls_exec (cfg := cfg) (W := W) n fut c.inner).move
  have hb : fut = .clientClose → c.clientWantsClose = true ∧ c.inner.conn.isHandshaking = false := by
    rintro rfl
    exact hs.busy hp
  refine ⟨hcl.ran hs.ran, fun hb' => ?_, ?_, ?_⟩
  · rcases hb' with hb' | hb'
    · exact absurd hb' hnp.1
    · exact absurd hb' hnp.2
  · show notes (fut.exec cfg W n c.inner).1.trace ≤ 1
    rcases exec_notes h n fut c.inner hs.ran fun hf => (hb hf).2 with ⟨h1, -⟩ | ⟨-, h2, h3, -⟩
    · rw [h1]; exact hs.once
    · have h0 : notes c.inner.trace = 0 := by
        by_contra h0
        obtain ⟨-, -, h4⟩ := hs.closed h0
        rcases h4 with h4 | h4
        · rw [h2] at h4; cases h4
        · exact hne h4
      rw [h3, h0]
  · intro h0
    change notes (fut.exec cfg W n c.inner).1.trace ≠ 0 at h0
    show c.clientWantsClose = true ∧ AllSent (fut.exec cfg W n c.inner).1.seen ∧ ((fut.exec cfg W n c.inner).1.clientClosed = true ∨ p = .error)
    rcases exec_notes h n fut c.inner hs.ran fun hf => (hb hf).2 with ⟨h1, h2⟩ | ⟨hf, h2, h3, h4, h5⟩
    · rw [h1] at h0
      obtain ⟨a, b, d⟩ := hs.closed h0
      refine ⟨a, b.still h hs.ran hcl, .inl ?_⟩
      rw [h2]
      rcases d with d | d
      · exact d
      · exact absurd d hne
    · refine ⟨(hb hf).1, h4, ?_⟩
      rcases hok with hok | hok
      · exact .inl (h5 hok)
      · exact .inr hok

theorem shut_poll {c0 : Conn} (X : Outside) (h : Conn.new cfg = .ok c0) (f : Nat) (t : Ticks) (c : MpcClient) (hs : ShutC cfg X.W c0 c) :
    ShutC cfg X.W c0 (c.poll cfg X f t).1 := by
  induction f generalizing t c with
  | zero => exact hs
  | succ f ih =>
    unfold MpcClient.poll
    cases hp : c.phase with
    | start => exact ih t { c with phase := .busy .start } (hs.to h (by rw [hp]; simp) _ (by simp) (.refl _) rfl id)
    | active => exact ih t _ (shut_activate h c hs (by rw [hp]; simp)).1
    | closeActive => exact ih t { c with phase := .closeBusy .run } (hs.to h (by rw [hp]; simp) _ (by simp) (.refl _) rfl id)
    | finalizing =>
      simp only
      cases t.finalize with
      | none => exact hs
      | some b =>
        cases b with
        | false => exact hs.to h (by rw [hp]; simp) _ (by simp) (.refl _) rfl id
        | true => exact hs.to h (by rw [hp]; simp) _ (by simp) (.refl _) rfl id
    | finished => exact hs.to h (by rw [hp]; simp) _ (by simp) (.refl _) rfl id
    | error =>
      refine ⟨hs.ran, fun h => (by rcases h with h | h <;> cases h), hs.once, fun h0 => ?_⟩
      obtain ⟨a, b, -⟩ := hs.closed h0
      exact ⟨a, b, .inr rfl⟩
    | busy fut =>
      simp only
      cases t.fut 0 with
      | none => exact hs
      | some n =>
        simp only
        have h1 := shut_exec h n fut c hs (.inl hp)
        revert h1
        rcases fut.exec cfg X.W n c.inner with ⟨i, r⟩
        intro h1
        cases r with
        | ok =>
          simp only
          have h2 := h1 .active (by simp) (.inl rfl)
          split
          · exact ih t.next { c with phase := .active, inner := i } h2
          · exact h2
        | _ => exact h1 .error (by simp) (.inr rfl)
    | closeBusy fut =>
      simp only
      cases t.fut 0 with
      | none => exact hs
      | some n =>
        simp only
        have h1 := shut_exec h n fut c hs (.inr hp)
        revert h1
        rcases fut.exec cfg X.W n c.inner with ⟨i, r⟩
        intro h1
        cases r with
        | ok =>
          simp only
          split
          · split
            · exact ih t.next { c with phase := .finalizing, inner := i } (h1 .finalizing (by simp) (.inl rfl))
            · exact h1 .error (by simp) (.inr rfl)
          · exact h1 .closeActive (by simp) (.inl rfl)
        | _ => exact h1 .error (by simp) (.inr rfl)

theorem ShutC.call {c0 : Conn} {c : MpcClient} (hs : ShutC cfg W c0 c) (k : Call)
    (hk : (∃ b, k = .readTls b) ∨ (∃ n, k = .writeTls n) ∨ (∃ n, k = .readPlaintext n) ∨ (∃ b, k = .writePlaintext b) ∧ c.clientWantsClose = false) :
    ShutC cfg W c0 (c.call cfg W k).1 := by
  have hcl : Calls cfg W (fun k => k ≠ .sendCloseNotify) c.inner.seen (c.call cfg W k).1.inner.seen :=
    Calls.one (cfg := cfg) (W := W) c.inner k (by rcases hk with ⟨_, rfl⟩ | ⟨_, rfl⟩ | ⟨_, rfl⟩ | ⟨⟨_, rfl⟩, _⟩ <;> simp)
  have hn : notes (c.call cfg W k).1.inner.trace = notes c.inner.trace := notes_calls (by simp) hcl
  have hran := hcl.ran hs.ran
  rcases hk with ⟨_, rfl⟩ | ⟨_, rfl⟩ | ⟨_, rfl⟩ | ⟨⟨_, rfl⟩, hw⟩
  · refine ⟨hran, hs.busy, by rw [hn]; exact hs.once, fun h0 => ?_⟩
    obtain ⟨h1, h2, h3⟩ := hs.closed (by rw [← hn]; exact h0)
    refine ⟨h1, ?_, h3⟩
    show sentOf c.inner.conn.io.common.log = written (c.inner.trace ++ [_])
    rw [written, out_snoc, show sentOf c.inner.conn.io.common.log = _ from h2]
    exact (List.append_nil _).symm
  · refine ⟨hran, hs.busy, by rw [hn]; exact hs.once, fun h0 => ?_⟩
    obtain ⟨h1, h2, h3⟩ := hs.closed (by rw [← hn]; exact h0)
    refine ⟨h1, ?_, h3⟩
    show sentOf c.inner.conn.io.common.log = written (c.inner.trace ++ [_])
    rw [written, out_snoc, show sentOf c.inner.conn.io.common.log = _ from h2]
    exact (List.append_nil _).symm
  · refine ⟨hran, hs.busy, by rw [hn]; exact hs.once, fun h0 => ?_⟩
    obtain ⟨h1, h2, h3⟩ := hs.closed (by rw [← hn]; exact h0)
    refine ⟨h1, ?_, h3⟩
    show sentOf c.inner.conn.io.common.log = written (c.inner.trace ++ [_])
    rw [written, out_snoc, show sentOf c.inner.conn.io.common.log = _ from h2]
    exact (List.append_nil _).symm
  · refine ⟨hran, fun hb => ?_, by rw [hn]; exact hs.once, fun h0 => ?_⟩
    · have := (hs.busy hb).1
      rw [hw] at this
      cases this
    · have := (hs.closed (by rw [← hn]; exact h0)).1
      rw [hw] at this
      cases this

/-- The invariant about the closing alert, for the prover. -/
structure Shut (cfg : ClientCfg) (W : World) (c0 : Conn) (d : Driver) : Prop where
  client : ShutC cfg W c0 d.client
  wants : d.client.clientWantsClose = true → d.appClosed = true ∧ d.appIn = []

theorem poll_flags (X : Outside) (f : Nat) (t : Ticks) (c : MpcClient) :
    (c.poll cfg X f t).1.clientWantsClose = c.clientWantsClose ∧ (c.poll cfg X f t).1.decrypt = c.decrypt := by
  induction f generalizing t c with
  | zero => exact ⟨rfl, rfl⟩
  | succ f ih =>
    unfold MpcClient.poll
    cases hp : c.phase with
    | start => exact ih t { c with phase := .busy .start }
    | active =>
      obtain ⟨h1, h2⟩ := ih t (c.activate cfg X.W)
      have h3 : (c.activate cfg X.W).clientWantsClose = c.clientWantsClose ∧ (c.activate cfg X.W).decrypt = c.decrypt := by
        unfold MpcClient.activate
        repeat' split
        all_goals exact ⟨rfl, rfl⟩
      exact ⟨h1.trans h3.1, h2.trans h3.2⟩
    | closeActive => exact ih t { c with phase := .closeBusy .run }
    | finalizing =>
      simp only
      cases t.finalize with
      | none => exact ⟨rfl, rfl⟩
      | some b => cases b <;> exact ⟨rfl, rfl⟩
    | finished => exact ⟨rfl, rfl⟩
    | error => exact ⟨rfl, rfl⟩
    | busy fut =>
      simp only
      cases t.fut 0 with
      | none => exact ⟨rfl, rfl⟩
      | some n =>
        simp only
        rcases fut.exec cfg X.W n c.inner with ⟨i, r⟩
        cases r with
        | ok =>
          simp only
          split
          · exact ih t.next { c with phase := .active, inner := i }
          · exact ⟨rfl, rfl⟩
        | _ => exact ⟨rfl, rfl⟩
    | closeBusy fut =>
      simp only
      cases t.fut 0 with
      | none => exact ⟨rfl, rfl⟩
      | some n =>
        simp only
        rcases fut.exec cfg X.W n c.inner with ⟨i, r⟩
        cases r with
        | ok =>
          simp only
          split
          · split
            · exact ih t.next { c with phase := .finalizing, inner := i }
            · exact ⟨rfl, rfl⟩
          · exact ⟨rfl, rfl⟩
        | _ => exact ⟨rfl, rfl⟩

variable {c0 : Conn}

theorem shut_takeApp (e : Env) (d : Driver) (h : Shut cfg W c0 d) : Shut cfg W c0 (d.takeApp cfg W e) := by
  unfold Driver.takeApp
  by_cases ha : d.appIn ≠ []
  · rw [if_pos ha]
    by_cases hw : d.client.wantsWrite = true
    · rw [if_pos hw]
      have hw' : (d.client.open? && !d.client.inner.conn.io.common.sendable.isFull) = true := hw
      have hwc : d.client.clientWantsClose = false := by
        by_contra hc
        exact ha (h.wants (by simpa using hc)).2
      unfold MpcClient.write
      rw [if_pos hw']
      have h1 := h.client.call (.writePlaintext (d.appIn.take (e.appGet + 1))) (.inr (.inr (.inr ⟨⟨_, rfl⟩, hwc⟩)))
      have h2 : (d.client.call cfg W (.writePlaintext (d.appIn.take (e.appGet + 1)))).1.clientWantsClose = false := hwc
      revert h1 h2
      rcases d.client.call cfg W (.writePlaintext (d.appIn.take (e.appGet + 1))) with ⟨c, r⟩
      intro h1 h2
      cases r <;> exact ⟨h1, fun hc => by rw [show c.clientWantsClose = false from h2] at hc; cases hc⟩
    · rw [if_neg hw]; exact h
  · rw [if_neg ha]
    by_cases hc : (d.appClosed && !d.clientClosed && !d.serverClosed) = true
    · rw [if_pos hc]
      simp only [Bool.and_eq_true] at hc
      refine ⟨⟨h.client.ran, fun hb => ⟨rfl, (h.client.busy hb).2⟩, h.client.once, fun h0 => ⟨rfl, (h.client.closed h0).2⟩⟩, fun _ => ⟨hc.1.1, ?_⟩⟩
      simpa using ha
    · rw [if_neg hc]; exact h

theorem shut_takeSocket (e : Env) (d : Driver) (h : Shut cfg W c0 d) : Shut cfg W c0 (d.takeSocket e).1 := by
  unfold Driver.takeSocket
  cases e.socketRead <;> exact ⟨h.client, h.wants⟩

theorem shut_takeServer (e : Env) (d : Driver) (h : Shut cfg W c0 d) : Shut cfg W c0 (d.takeServer cfg W e) := by
  unfold Driver.takeServer
  by_cases ha : d.fromServer ≠ []
  · rw [if_pos ha]
    by_cases hw : d.client.wantsReadTls = true
    · rw [if_pos hw]
      have hw' : (d.client.open? && d.client.inner.conn.wantsRead) = true := hw
      unfold MpcClient.readTls
      rw [if_pos hw']
      have h1 := h.client.call (.readTls (d.fromServer.take (e.serverGet + 1))) (.inl ⟨_, rfl⟩)
      have h2 : (d.client.call cfg W (.readTls (d.fromServer.take (e.serverGet + 1)))).1.clientWantsClose = d.client.clientWantsClose := rfl
      revert h1 h2
      rcases d.client.call cfg W (.readTls (d.fromServer.take (e.serverGet + 1))) with ⟨c, r⟩
      intro h1 h2
      cases r <;> exact ⟨h1, fun hc => h.wants (h2 ▸ hc)⟩
    · rw [if_neg hw]; exact h
  · rw [if_neg ha]
    split
    · exact ⟨⟨h.client.ran, h.client.busy, h.client.once, h.client.closed⟩, h.wants⟩
    · exact h

theorem shut_ioTo (e : Env) (d : Driver) (h : Shut cfg W c0 d) : Shut cfg W c0 (d.ioTo cfg W e).1 := by
  unfold Driver.ioTo
  have h1 := shut_takeSocket e _ (shut_takeApp (cfg := cfg) (W := W) e d h)
  revert h1
  rcases (d.takeApp cfg W e).takeSocket e with ⟨d1, err⟩
  intro h1
  cases err with
  | none => exact shut_takeServer e d1 h1
  | some x => exact h1

theorem shut_giveServer (e : Env) (d : Driver) (h : Shut cfg W c0 d) : Shut cfg W c0 (d.giveServer cfg W e) := by
  unfold Driver.giveServer MpcClient.writeTls
  by_cases hw : (d.client.open? && d.client.inner.conn.wantsWrite) = true
  · rw [if_pos hw]
    have h1 := h.client.call (.writeTls e.room) (.inr (.inl ⟨_, rfl⟩))
    have h2 : (d.client.call cfg W (.writeTls e.room)).1.clientWantsClose = d.client.clientWantsClose := rfl
    revert h1 h2
    rcases d.client.call cfg W (.writeTls e.room) with ⟨c, r⟩
    intro h1 h2
    cases r <;> exact ⟨h1, fun hc => h.wants (h2 ▸ hc)⟩
  · rw [if_neg hw]; exact ⟨h.client, h.wants⟩

theorem shut_giveSocket (e : Env) (d : Driver) (h : Shut cfg W c0 d) : Shut cfg W c0 (d.giveSocket e).1 := by
  unfold Driver.giveSocket
  cases e.socketWrite <;> exact ⟨h.client, h.wants⟩

theorem shut_giveApp (e : Env) (d : Driver) (h : Shut cfg W c0 d) : Shut cfg W c0 (d.giveApp cfg W e).1 := by
  unfold Driver.giveApp
  cases e.appSink with
  | takes room =>
    simp only
    by_cases hw : d.client.wantsRead = true
    · rw [if_pos hw]
      have hw' : (d.client.open? && !d.client.inner.conn.io.common.received.isEmpty) = true := hw
      unfold MpcClient.read
      rw [if_pos hw']
      have h1 := h.client.call (.readPlaintext room) (.inr (.inr (.inl ⟨_, rfl⟩)))
      have h2 : (d.client.call cfg W (.readPlaintext room)).1.clientWantsClose = d.client.clientWantsClose := rfl
      revert h1 h2
      rcases d.client.call cfg W (.readPlaintext room) with ⟨c, r⟩
      intro h1 h2
      cases r <;> exact ⟨h1, fun hc => h.wants (h2 ▸ hc)⟩
    · rw [if_neg hw]; exact h
  | _ => exact h

theorem shut_ioFrom (e : Env) (d : Driver) (h : Shut cfg W c0 d) : Shut cfg W c0 (d.ioFrom cfg W e).1 := by
  unfold Driver.ioFrom
  have h1 := shut_giveSocket e _ (shut_giveServer (cfg := cfg) (W := W) e d h)
  revert h1
  rcases (d.giveServer cfg W e).giveSocket e with ⟨d1, err⟩
  intro h1
  cases err with
  | none => exact shut_giveApp e d1 h1
  | some x => exact h1

theorem shut_pollClient (X : Outside) (hc : Conn.new cfg = .ok c0) (e : Env) (d : Driver) (h : Shut cfg X.W c0 d) :
    Shut cfg X.W c0 (d.pollClient cfg X e).1 := by
  unfold Driver.pollClient
  split
  · exact h
  · have h1 := shut_poll X hc e.fuel e.ticks d.client h.client
    have h2 := (poll_flags (cfg := cfg) X e.fuel e.ticks d.client).1
    revert h1 h2
    rcases d.client.poll cfg X e.fuel e.ticks with ⟨c, r⟩
    intro h1 h2
    cases r <;> exact ⟨h1, fun hc => h.wants (h2 ▸ hc)⟩

theorem shut_poll' (X : Outside) (hc : Conn.new cfg = .ok c0) (e : Env) (d : Driver) (h : Shut cfg X.W c0 d) :
    Shut cfg X.W c0 (d.poll cfg X e).1 := by
  unfold Driver.poll
  have h1 := shut_ioTo (cfg := cfg) (W := X.W) e d h
  revert h1
  rcases d.ioTo cfg X.W e with ⟨d1, err⟩
  intro h1
  cases err with
  | some x => exact h1
  | none =>
    simp only
    have h2 := shut_pollClient X hc e d1 h1
    revert h2
    rcases d1.pollClient cfg X e with ⟨d2, r⟩
    intro h2
    cases r with
    | pending =>
      simp only
      have h3 := shut_ioFrom (cfg := cfg) (W := X.W) e d2 h2
      revert h3
      rcases d2.ioFrom cfg X.W e with ⟨d3, err⟩
      intro h3
      cases err <;> exact h3
    | _ => exact h2

theorem shut_finishing (e : Env) (d : Driver) (err : Option DErr) (h : Shut cfg W c0 d) : Shut cfg W c0 (d.finishing e err).1 := by
  unfold Driver.finishing
  cases e.finish with
  | none => exact ⟨h.client, h.wants⟩
  | some ok =>
    cases err with
    | some x => exact ⟨h.client, h.wants⟩
    | none => cases ok <;> exact ⟨h.client, h.wants⟩

theorem shut_step (X : Outside) (hc : Conn.new cfg = .ok c0) (d : Driver) (a : Act) (h : Shut cfg X.W c0 d) :
    Shut cfg X.W c0 (d.step cfg X a).1 := by
  cases a with
  | poll e =>
    show Shut cfg X.W c0 (d.pollFuture cfg X e).1
    unfold Driver.pollFuture
    cases d.phase with
    | connected =>
      simp only
      have h1 := shut_poll' X hc e d h
      revert h1
      rcases d.poll cfg X e with ⟨d1, r⟩
      intro h1
      cases r with
      | ready => exact shut_finishing e d1 _ h1
      | err x => exact shut_finishing e d1 _ h1
      | pending => exact h1
      | _ => exact ⟨h1.client, h1.wants⟩
    | finishing err => exact shut_finishing e d err h
    | done => exact ⟨h.client, h.wants⟩
    | error => exact h
  | appWrite b =>
    show Shut cfg X.W c0 (if d.appClosed then d else _)
    by_cases hcl : d.appClosed = true
    · rw [if_pos hcl]; exact h
    · rw [if_neg hcl]
      exact ⟨h.client, fun hw => absurd (h.wants hw).1 hcl⟩
  | appClose => exact ⟨h.client, fun hw => ⟨rfl, (h.wants hw).2⟩⟩
  | appRead n => exact ⟨h.client, h.wants⟩
  | setDecrypt b => exact ⟨⟨h.client.ran, h.client.busy, h.client.once, h.client.closed⟩, h.wants⟩

theorem shut_run (X : Outside) (hc : Conn.new cfg = .ok c0) (b : Bool) (acts : List Act) :
    Shut cfg X.W c0 ((Driver.new c0 b).run cfg X acts).1 :=
  Sdk.runCalls_inv (P := fun d _ => Shut cfg X.W c0 d)
    ⟨⟨⟨[], rfl⟩, fun h => (by rcases h with h | h <;> cases h), Nat.zero_le _, fun h => absurd rfl h⟩, fun h => (by cases h)⟩
    (fun d _ a h => shut_step X hc d a h) acts

/-- C85.  The closing alert is sent at most once, and if it was, the application had closed its side and all that it wrote was
encrypted before. -/
theorem C85_close_notify (X : Outside) (c0 : Conn) (h : Conn.new cfg = .ok c0) (b : Bool) (acts : List Act) :
    let d := ((Driver.new c0 b).run cfg X acts).1
    notes d.client.inner.trace ≤ 1 ∧
    (notes d.client.inner.trace ≠ 0 → d.appClosed = true ∧ sentOf d.client.inner.conn.io.common.log = d.appWrote) := by
  intro d
  have hs := shut_run X h b acts
  have hk : Kept cfg X.W c0 d := kept_run X c0 b acts
  refine ⟨hs.client.once, fun h0 => ?_⟩
  obtain ⟨h1, h2, -⟩ := hs.client.closed h0
  obtain ⟨h3, h4⟩ := hs.wants h1
  refine ⟨h3, ?_⟩
  rw [hk.wrote, show d.appIn = [] from h4, List.append_nil]
  exact h2

end Tlsn.Drive
