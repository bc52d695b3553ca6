import Verif.Drive.Up
import Verif.Client.Props

/-! # The calls that the prover makes on its connection -/

namespace Tlsn.Drive

open Tlsn.Client

variable {cfg : ClientCfg}

/-- From one connection, with the calls so far, to another by calls in `S`. -/
inductive Calls (cfg : ClientCfg) (W : World) (S : Call → Prop) : Conn × List (Call × CReply) → Conn × List (Call × CReply) → Prop where
  | refl (a) : Calls cfg W S a a
  | step {a b k} : Calls cfg W S a b → S k → Calls cfg W S a ((b.1.step cfg W k).1, b.2 ++ [(k, (b.1.step cfg W k).2)])

/-- The connection and the calls. -/
def Inner.seen (i : Inner) : Conn × List (Call × CReply) := (i.conn, i.trace)

variable {W : World} {S : Call → Prop}

theorem Calls.trans {a b c : Conn × List (Call × CReply)} (h1 : Calls cfg W S a b) (h2 : Calls cfg W S b c) : Calls cfg W S a c := by
  induction h2 with
  | refl => exact h1
  | step _ hk ih => exact ih.step hk

theorem Calls.mono {S' : Call → Prop} {a b : Conn × List (Call × CReply)} (h : Calls cfg W S a b) (hs : ∀ k, S k → S' k) :
    Calls cfg W S' a b := by
  induction h with
  | refl => exact .refl _
  | step _ hk ih => exact ih.step (hs _ hk)

theorem Calls.one (i : Inner) (k : Call) (hk : S k) : Calls cfg W S i.seen (i.call cfg W k).1.seen := (Calls.refl _).step hk

/-- These are the calls of a run. -/
theorem Calls.ran {c0 : Conn} {a b : Conn × List (Call × CReply)} (h : Calls cfg W S a b) (ha : ∃ l, c0.run cfg W l = a) :
    ∃ l, c0.run cfg W l = b := by
  induction h with
  | refl => exact ha
  | @step b k _ _ ih =>
    obtain ⟨l, hl⟩ := ih
    exact ⟨l ++ [k], by rw [run_snoc, hl]⟩

/-- Calls which move no data of the caller. -/
def Moves (k : Call) : Prop := k.inner = true

theorem out_snoc {f : Call × CReply → Bytes} (l : List (Call × CReply)) (x : Call × CReply) :
    (l ++ [x]).flatMap f = l.flatMap f ++ f x := by simp

/-- Calls that move no data. -/
def Still (k : Call) : Prop := k.inner = true ∨ ∃ b, k = .enableDecryption b

theorem Calls.still {a b : Conn × List (Call × CReply)} (h : Calls cfg W Still a b) :
    written b.2 = written a.2 ∧ readOut b.2 = readOut a.2 ∧ wireIn b.2 = wireIn a.2 ∧ wireOut b.2 = wireOut a.2 := by
  induction h with
  | refl => exact ⟨rfl, rfl, rfl, rfl⟩
  | @step b k _ hk ih =>
    obtain ⟨h1, h2, h3, h4⟩ := ih
    rw [← h1, ← h2, ← h3, ← h4]
    simp only [written, readOut, wireIn, wireOut, out_snoc]
    rcases hk with hk | ⟨x, rfl⟩
    · cases k with
      | start => simp
      | process n => simp
      | sendCloseNotify => simp
      | serverClosed => simp
      | _ => cases hk
    · simp

/-! ## The futures -/

/-- Calls of `process_new_packets`. -/
def IsProcess (k : Call) : Prop := ∃ n, k = .process n

theorem moves_process {k : Call} (h : IsProcess k) : Moves k := by obtain ⟨n, rfl⟩ := h; rfl

theorem calls_runLoop (n k w r : Nat) (i : Inner) : Calls cfg W IsProcess i.seen (runLoop cfg W n k w r i).1.seen ∧
    (runLoop cfg W n k w r i).1.clientClosed = i.clientClosed ∧ (runLoop cfg W n k w r i).1.decrypt = i.decrypt := by
  induction k generalizing w r i with
  | zero => exact ⟨.refl _, rfl, rfl⟩
  | succ k ih =>
    unfold runLoop
    have h1 : Calls cfg W IsProcess i.seen (i.call cfg W (.process n)).1.seen := Calls.one i _ ⟨n, rfl⟩
    have h2 : (i.call cfg W (.process n)).1.clientClosed = i.clientClosed := rfl
    have h3 : (i.call cfg W (.process n)).1.decrypt = i.decrypt := rfl
    revert h1 h2 h3
    rcases i.call cfg W (.process n) with ⟨j, reply⟩
    intro h1 h2 h3
    cases reply with
    | io w' r' =>
      simp only
      split
      · exact ⟨h1, h2, h3⟩
      · obtain ⟨a, b, c⟩ := ih w' r' j
        exact ⟨h1.trans a, b.trans h2, c.trans h3⟩
    | _ => exact ⟨h1, h2, h3⟩

theorem calls_run (n : Nat) (i : Inner) : Calls cfg W IsProcess i.seen (runFut cfg W n i).1.seen ∧
    (runFut cfg W n i).1.clientClosed = i.clientClosed ∧ (runFut cfg W n i).1.decrypt = i.decrypt := by
  unfold runFut
  have h1 : Calls cfg W IsProcess i.seen (i.call cfg W (.process n)).1.seen := Calls.one i _ ⟨n, rfl⟩
  have h2 : (i.call cfg W (.process n)).1.clientClosed = i.clientClosed := rfl
  have h3 : (i.call cfg W (.process n)).1.decrypt = i.decrypt := rfl
  revert h1 h2 h3
  rcases i.call cfg W (.process n) with ⟨j, reply⟩
  intro h1 h2 h3
  cases reply with
  | io w' r' =>
    obtain ⟨a, b, c⟩ := calls_runLoop (cfg := cfg) (W := W) n n w' r' j
    exact ⟨h1.trans a, b.trans h2, c.trans h3⟩
  | _ => exact ⟨h1, h2, h3⟩

theorem calls_exec (n : Nat) (fut : Fut) (i : Inner) : Calls cfg W Moves i.seen (fut.exec cfg W n i).1.seen := by
  cases fut with
  | start => exact Calls.one i _ rfl
  | run => exact (calls_run n i).1.mono fun _ => moves_process
  | clientClose =>
    show Calls cfg W Moves i.seen (clientCloseFut cfg W n i).1.seen
    unfold clientCloseFut
    have h1 := (calls_run (cfg := cfg) (W := W) n i).1.mono fun _ => moves_process
    revert h1
    rcases runFut cfg W n i with ⟨j, r⟩
    intro h1
    cases r with
    | ok =>
      simp only
      split
      · exact h1
      · have h2 : Calls cfg W Moves j.seen (j.call cfg W .sendCloseNotify).1.seen := Calls.one j _ rfl
        revert h2
        rcases j.call cfg W .sendCloseNotify with ⟨l, reply⟩
        intro h2
        cases reply <;> exact h1.trans h2
    | _ => exact h1
  | serverClose =>
    show Calls cfg W Moves i.seen (serverCloseFut cfg W n i).1.seen
    unfold serverCloseFut
    have h1 := (calls_run (cfg := cfg) (W := W) n i).1.mono fun _ => moves_process
    revert h1
    rcases runFut cfg W n i with ⟨j, r⟩
    intro h1
    cases r with
    | ok => exact h1.trans (Calls.one j _ rfl)
    | _ => exact h1

theorem Calls.move {a b : Conn × List (Call × CReply)} (h : Calls cfg W Moves a b) : Calls cfg W Still a b :=
  h.mono fun _ hk => .inl hk

theorem calls_activate (c : MpcClient) : Calls cfg W Still c.inner.seen (c.activate cfg W).inner.seen := by
  unfold MpcClient.activate
  repeat' split
  all_goals first
    | exact .refl _
    | exact Calls.one c.inner (.enableDecryption c.decrypt) (.inr ⟨_, rfl⟩)

theorem calls_poll (X : Outside) (f : Nat) (t : Ticks) (c : MpcClient) :
    Calls cfg X.W Still c.inner.seen (c.poll cfg X f t).1.inner.seen := by
  induction f generalizing t c with
  | zero => exact .refl _
  | succ f ih =>
    unfold MpcClient.poll
    cases c.phase with
    | start => exact ih t { c with phase := .busy .start }
    | active => exact (calls_activate c).trans (ih _ _)
    | closeActive => exact ih t { c with phase := .closeBusy .run }
    | finalizing =>
      simp only
      cases t.finalize with
      | none => exact .refl _
      | some b => cases b <;> exact .refl _
    | finished => exact .refl _
    | error => exact .refl _
    | busy fut =>
      simp only
      cases t.fut 0 with
      | none => exact .refl _
      | some n =>
        simp only
        have h1 := (calls_exec (cfg := cfg) (W := X.W) n fut c.inner).move
        revert h1
        rcases fut.exec cfg X.W n c.inner with ⟨i, r⟩
        intro h1
        cases r with
        | ok =>
          simp only
          split
          · exact h1.trans (ih _ { c with phase := .active, inner := i })
          · exact h1
        | _ => exact h1
    | closeBusy fut =>
      simp only
      cases t.fut 0 with
      | none => exact .refl _
      | some n =>
        simp only
        have h1 := (calls_exec (cfg := cfg) (W := X.W) n fut c.inner).move
        revert h1
        rcases fut.exec cfg X.W n c.inner with ⟨i, r⟩
        intro h1
        cases r with
        | ok =>
          simp only
          split
          · split
            · exact h1.trans (ih _ { c with phase := .finalizing, inner := i })
            · exact h1
          · exact h1
        | _ => exact h1

/-! ## The pipes -/

/-- Nothing is lost, doubled or reordered between the application, the connection and the socket. -/
structure Kept (cfg : ClientCfg) (W : World) (c0 : Conn) (d : Driver) : Prop where
  ran : ∃ l, c0.run cfg W l = d.client.inner.seen
  wrote : d.appWrote = written d.client.inner.trace ++ d.appIn
  read : readOut d.client.inner.trace = d.appRead ++ d.appOut
  socketIn : d.socketIn = wireIn d.client.inner.trace ++ d.fromServer
  socketOut : wireOut d.client.inner.trace = d.socketOut ++ d.toServer

variable {c0 : Conn}

theorem Kept.still {d : Driver} (h : Kept cfg W c0 d) {c : MpcClient} (hc : Calls cfg W Still d.client.inner.seen c.inner.seen)
    {o : Bool} {p : FPhase} : Kept cfg W c0 { d with client := c, output := o, phase := p } := by
  obtain ⟨h1, h2, h3, h4⟩ := hc.still
  exact ⟨hc.ran h.ran, h.wrote.trans (by rw [show written c.inner.trace = _ from h1]; rfl),
    (show readOut c.inner.trace = _ from h2).trans h.read, h.socketIn.trans (by rw [show wireIn c.inner.trace = _ from h3]; rfl),
    (show wireOut c.inner.trace = _ from h4).trans h.socketOut⟩

theorem ran_call {d : Driver} (h : Kept cfg W c0 d) (k : Call) : ∃ l, c0.run cfg W l = (d.client.inner.call cfg W k).1.seen :=
  (Calls.one (S := fun _ => True) d.client.inner k trivial).ran h.ran

theorem kept_takeApp (e : Env) (d : Driver) (h : Kept cfg W c0 d) : Kept cfg W c0 (d.takeApp cfg W e) := by
  unfold Driver.takeApp
  by_cases ha : d.appIn ≠ []
  · rw [if_pos ha]
    by_cases hw : d.client.wantsWrite = true
    · rw [if_pos hw]
      have hw' : (d.client.open? && !d.client.inner.conn.io.common.sendable.isFull) = true := hw
      unfold MpcClient.write
      rw [if_pos hw']
      have hran := ran_call h (.writePlaintext (d.appIn.take (e.appGet + 1)))
      have hreply : ∃ n, n ≤ (d.appIn.take (e.appGet + 1)).length ∧
          (d.client.call cfg W (.writePlaintext (d.appIn.take (e.appGet + 1)))).2 = .count n := by
        show ∃ n, _ ∧ (callWrite _ d.client.inner.conn).2 = .count n
        unfold callWrite
        split
        · exact ⟨0, Nat.zero_le _, rfl⟩
        · refine ⟨_, ?_, rfl⟩
          unfold VecBuf.appendLimited VecBuf.applyLimit
          simp only
          split
          · exact Nat.min_le_left _ _
          · exact Nat.le_refl _
      obtain ⟨n, hn, hr⟩ := hreply
      have hc : d.client.call cfg W (.writePlaintext (d.appIn.take (e.appGet + 1))) =
          ((d.client.call cfg W (.writePlaintext (d.appIn.take (e.appGet + 1)))).1, .count n) := by rw [← hr]
      rw [hc]
      have htr : (d.client.call cfg W (.writePlaintext (d.appIn.take (e.appGet + 1)))).1.inner.trace =
          d.client.inner.trace ++ [(.writePlaintext (d.appIn.take (e.appGet + 1)), .count n)] := by rw [← hr]; rfl
      refine ⟨hran, ?_, ?_, ?_, ?_⟩
      · show d.appWrote = written (MpcClient.inner _).trace ++ d.appIn.drop n
        rw [htr, written, out_snoc, h.wrote, written]
        simp only [List.append_assoc, List.append_cancel_left_eq]
        rw [List.take_take, Nat.min_eq_left (by rw [List.length_take] at hn; omega), List.take_append_drop]
      · show readOut (MpcClient.inner _).trace = _
        rw [htr, readOut, out_snoc]; exact (List.append_nil _).trans h.read
      · show _ = wireIn (MpcClient.inner _).trace ++ _
        rw [htr, wireIn, out_snoc, List.append_nil]; exact h.socketIn
      · show wireOut (MpcClient.inner _).trace = _
        rw [htr, wireOut, out_snoc]; exact (List.append_nil _).trans h.socketOut
    · rw [if_neg hw]; exact h
  · rw [if_neg ha]
    split
    · exact ⟨h.ran, h.wrote, h.read, h.socketIn, h.socketOut⟩
    · exact h

theorem kept_takeSocket (e : Env) (d : Driver) (h : Kept cfg W c0 d) : Kept cfg W c0 (d.takeSocket e).1 := by
  unfold Driver.takeSocket
  cases e.socketRead with
  | data b => exact ⟨h.ran, h.wrote, h.read, by show d.socketIn ++ b = _; rw [h.socketIn, List.append_assoc], h.socketOut⟩
  | eof => exact ⟨h.ran, h.wrote, h.read, h.socketIn, h.socketOut⟩
  | _ => exact h

theorem read_le (f : Deframer) (b : Bytes) : (f.read b).2 ≤ b.length := by
  show (b.take _).length ≤ b.length
  rw [List.length_take]
  exact Nat.min_le_right _ _

theorem kept_takeServer (e : Env) (d : Driver) (h : Kept cfg W c0 d) : Kept cfg W c0 (d.takeServer cfg W e) := by
  unfold Driver.takeServer
  by_cases ha : d.fromServer ≠ []
  · rw [if_pos ha]
    by_cases hw : d.client.wantsReadTls = true
    · rw [if_pos hw]
      have hw' : (d.client.open? && d.client.inner.conn.wantsRead) = true := hw
      unfold MpcClient.readTls
      rw [if_pos hw']
      have hran := ran_call h (.readTls (d.fromServer.take (e.serverGet + 1)))
      have hn := read_le d.client.inner.conn.io.deframer (d.fromServer.take (e.serverGet + 1))
      revert hn
      have hr : (d.client.call cfg W (.readTls (d.fromServer.take (e.serverGet + 1)))).2 =
        .count (d.client.inner.conn.io.deframer.read (d.fromServer.take (e.serverGet + 1))).2 := rfl
      revert hr
      generalize (d.client.inner.conn.io.deframer.read (d.fromServer.take (e.serverGet + 1))).2 = n
      intro hr hn
      have hc : d.client.call cfg W (.readTls (d.fromServer.take (e.serverGet + 1))) =
          ((d.client.call cfg W (.readTls (d.fromServer.take (e.serverGet + 1)))).1, .count n) := by rw [← hr]
      rw [hc]
      have htr : (d.client.call cfg W (.readTls (d.fromServer.take (e.serverGet + 1)))).1.inner.trace =
          d.client.inner.trace ++ [(.readTls (d.fromServer.take (e.serverGet + 1)), .count n)] := by rw [← hr]; rfl
      refine ⟨hran, ?_, ?_, ?_, ?_⟩
      · show _ = written (MpcClient.inner _).trace ++ _
        rw [htr, written, out_snoc, List.append_nil]; exact h.wrote
      · show readOut (MpcClient.inner _).trace = _
        rw [htr, readOut, out_snoc]; exact (List.append_nil _).trans h.read
      · show d.socketIn = wireIn (MpcClient.inner _).trace ++ d.fromServer.drop n
        rw [htr, wireIn, out_snoc, h.socketIn, wireIn]
        simp only [List.append_assoc, List.append_cancel_left_eq]
        rw [List.take_take, Nat.min_eq_left (by rw [List.length_take] at hn; omega), List.take_append_drop]
      · show wireOut (MpcClient.inner _).trace = _
        rw [htr, wireOut, out_snoc]; exact (List.append_nil _).trans h.socketOut
    · rw [if_neg hw]; exact h
  · rw [if_neg ha]
    split
    · exact ⟨h.ran, h.wrote, h.read, h.socketIn, h.socketOut⟩
    · exact h

theorem kept_ioTo (e : Env) (d : Driver) (h : Kept cfg W c0 d) : Kept cfg W c0 (d.ioTo cfg W e).1 := by
  unfold Driver.ioTo
  have h1 := kept_takeSocket e _ (kept_takeApp (cfg := cfg) (W := W) e d h)
  revert h1
  rcases (d.takeApp cfg W e).takeSocket e with ⟨d1, err⟩
  intro h1
  cases err with
  | none => exact kept_takeServer e d1 h1
  | some x => exact h1

theorem kept_giveServer (e : Env) (d : Driver) (h : Kept cfg W c0 d) : Kept cfg W c0 (d.giveServer cfg W e) := by
  unfold Driver.giveServer MpcClient.writeTls
  by_cases hw : (d.client.open? && d.client.inner.conn.wantsWrite) = true
  · rw [if_pos hw]
    have hran := ran_call h (.writeTls e.room)
    have hr : (d.client.call cfg W (.writeTls e.room)).2 = .data (d.client.inner.conn.io.common.sendableTls.writeTo e.room).2 := rfl
    revert hr
    generalize (d.client.inner.conn.io.common.sendableTls.writeTo e.room).2 = b
    intro hr
    have hc : d.client.call cfg W (.writeTls e.room) = ((d.client.call cfg W (.writeTls e.room)).1, .data b) := by rw [← hr]
    rw [hc]
    have htr : (d.client.call cfg W (.writeTls e.room)).1.inner.trace = d.client.inner.trace ++ [(.writeTls e.room, .data b)] := by
      rw [← hr]; rfl
    refine ⟨hran, ?_, ?_, ?_, ?_⟩
    · show _ = written (MpcClient.inner _).trace ++ _
      rw [htr, written, out_snoc, List.append_nil]; exact h.wrote
    · show readOut (MpcClient.inner _).trace = _
      rw [htr, readOut, out_snoc]; exact (List.append_nil _).trans h.read
    · show _ = wireIn (MpcClient.inner _).trace ++ _
      rw [htr, wireIn, out_snoc, List.append_nil]; exact h.socketIn
    · show wireOut (MpcClient.inner _).trace = d.socketOut ++ (d.toServer ++ b)
      rw [htr, wireOut, out_snoc, ← List.append_assoc, ← h.socketOut]; rfl
  · rw [if_neg hw]
    exact ⟨h.ran, h.wrote, h.read, h.socketIn, by show _ = d.socketOut ++ (d.toServer ++ []); rw [List.append_nil]; exact h.socketOut⟩

theorem kept_giveSocket (e : Env) (d : Driver) (h : Kept cfg W c0 d) : Kept cfg W c0 (d.giveSocket e).1 := by
  unfold Driver.giveSocket
  cases e.socketWrite with
  | takes n =>
    exact ⟨h.ran, h.wrote, h.read, h.socketIn, by
      show _ = (d.socketOut ++ d.toServer.take n) ++ d.toServer.drop n
      rw [List.append_assoc, List.take_append_drop]; exact h.socketOut⟩
  | _ => exact h

theorem kept_giveApp (e : Env) (d : Driver) (h : Kept cfg W c0 d) : Kept cfg W c0 (d.giveApp cfg W e).1 := by
  unfold Driver.giveApp
  cases e.appSink with
  | takes room =>
    simp only
    by_cases hw : d.client.wantsRead = true
    · rw [if_pos hw]
      have hw' : (d.client.open? && !d.client.inner.conn.io.common.received.isEmpty) = true := hw
      unfold MpcClient.read
      rw [if_pos hw']
      have hran := ran_call h (.readPlaintext room)
      have hr : (d.client.call cfg W (.readPlaintext room)).2 = .data (d.client.inner.conn.io.common.received.read room).2 := rfl
      revert hr
      generalize (d.client.inner.conn.io.common.received.read room).2 = b
      intro hr
      have hc : d.client.call cfg W (.readPlaintext room) = ((d.client.call cfg W (.readPlaintext room)).1, .data b) := by rw [← hr]
      rw [hc]
      have htr : (d.client.call cfg W (.readPlaintext room)).1.inner.trace = d.client.inner.trace ++ [(.readPlaintext room, .data b)] := by
        rw [← hr]; rfl
      refine ⟨hran, ?_, ?_, ?_, ?_⟩
      · show _ = written (MpcClient.inner _).trace ++ _
        rw [htr, written, out_snoc, List.append_nil]; exact h.wrote
      · show readOut (MpcClient.inner _).trace = d.appRead ++ (d.appOut ++ b)
        rw [htr, readOut, out_snoc, ← List.append_assoc, ← h.read]; rfl
      · show _ = wireIn (MpcClient.inner _).trace ++ _
        rw [htr, wireIn, out_snoc, List.append_nil]; exact h.socketIn
      · show wireOut (MpcClient.inner _).trace = _
        rw [htr, wireOut, out_snoc]; exact (List.append_nil _).trans h.socketOut
    · rw [if_neg hw]; exact h
  | _ => exact h

theorem kept_ioFrom (e : Env) (d : Driver) (h : Kept cfg W c0 d) : Kept cfg W c0 (d.ioFrom cfg W e).1 := by
  unfold Driver.ioFrom
  have h1 := kept_giveSocket e _ (kept_giveServer (cfg := cfg) (W := W) e d h)
  revert h1
  rcases (d.giveServer cfg W e).giveSocket e with ⟨d1, err⟩
  intro h1
  cases err with
  | none => exact kept_giveApp e d1 h1
  | some x => exact h1

theorem kept_pollClient (X : Outside) (e : Env) (d : Driver) (h : Kept cfg X.W c0 d) : Kept cfg X.W c0 (d.pollClient cfg X e).1 := by
  unfold Driver.pollClient
  split
  · exact h
  · have h1 := calls_poll (cfg := cfg) X e.fuel e.ticks d.client
    revert h1
    rcases d.client.poll cfg X e.fuel e.ticks with ⟨c, r⟩
    intro h1
    cases r <;> exact h.still h1

theorem kept_poll (X : Outside) (e : Env) (d : Driver) (h : Kept cfg X.W c0 d) : Kept cfg X.W c0 (d.poll cfg X e).1 := by
  unfold Driver.poll
  have h1 := kept_ioTo (cfg := cfg) (W := X.W) e d h
  revert h1
  rcases d.ioTo cfg X.W e with ⟨d1, err⟩
  intro h1
  cases err with
  | some x => exact h1
  | none =>
    simp only
    have h2 := kept_pollClient X e d1 h1
    revert h2
    rcases d1.pollClient cfg X e with ⟨d2, r⟩
    intro h2
    cases r with
    | pending =>
      simp only
      have h3 := kept_ioFrom (cfg := cfg) (W := X.W) e d2 h2
      revert h3
      rcases d2.ioFrom cfg X.W e with ⟨d3, err⟩
      intro h3
      cases err <;> exact h3
    | _ => exact h2

theorem Kept.phase {d : Driver} (h : Kept cfg W c0 d) (p : FPhase) : Kept cfg W c0 { d with phase := p } :=
  ⟨h.ran, h.wrote, h.read, h.socketIn, h.socketOut⟩

theorem kept_finishing (e : Env) (d : Driver) (err : Option DErr) (h : Kept cfg W c0 d) : Kept cfg W c0 (d.finishing e err).1 := by
  unfold Driver.finishing
  cases e.finish with
  | none => exact h.phase _
  | some ok =>
    cases err with
    | some x => exact h.phase _
    | none => cases ok <;> exact h.phase _

theorem kept_future (X : Outside) (e : Env) (d : Driver) (h : Kept cfg X.W c0 d) : Kept cfg X.W c0 (d.pollFuture cfg X e).1 := by
  unfold Driver.pollFuture
  cases hp : d.phase with
  | connected =>
    simp only
    have h1 := kept_poll X e d h
    revert h1
    rcases d.poll cfg X e with ⟨d1, r⟩
    intro h1
    cases r with
    | ready => exact kept_finishing e d1 _ h1
    | err x => exact kept_finishing e d1 _ h1
    | pending => exact h1
    | _ => exact h1.phase _
  | finishing err => exact kept_finishing e d err h
  | done => exact h.phase _
  | error => exact h

theorem kept_step (X : Outside) (d : Driver) (a : Act) (h : Kept cfg X.W c0 d) : Kept cfg X.W c0 (d.step cfg X a).1 := by
  cases a with
  | poll e => exact kept_future X e d h
  | appWrite b =>
    show Kept cfg X.W c0 (if d.appClosed then d else _)
    split
    · exact h
    · exact ⟨h.ran, by show d.appWrote ++ b = _; rw [h.wrote, List.append_assoc], h.read, h.socketIn, h.socketOut⟩
  | appClose => exact ⟨h.ran, h.wrote, h.read, h.socketIn, h.socketOut⟩
  | appRead n =>
    exact ⟨h.ran, h.wrote, by
      show _ = (d.appRead ++ d.appOut.take n) ++ d.appOut.drop n
      rw [List.append_assoc, List.take_append_drop]; exact h.read, h.socketIn, h.socketOut⟩
  | setDecrypt b => exact ⟨h.ran, h.wrote, h.read, h.socketIn, h.socketOut⟩

theorem kept_run (X : Outside) (c0 : Conn) (b : Bool) (acts : List Act) : Kept cfg X.W c0 ((Driver.new c0 b).run cfg X acts).1 :=
  Sdk.runCalls_inv (P := fun d _ => Kept cfg X.W c0 d) ⟨⟨[], rfl⟩, rfl, rfl, rfl, rfl⟩ (fun d _ a h => kept_step X d a h) acts

end Tlsn.Drive
