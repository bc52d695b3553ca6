import Verif.Drive.Control
import Verif.Drive.Examples

/-!
# When a prover that waits is polled again

A future that returns `Pending` is polled again only if it was woken.  `Driver.wakes` follows the calls of `wake_by_ref` in a poll;
all else that wakes the task are the socket, the pipes and the futures of the leader, which keep the waker of a poll in which they
were pending.
-/

namespace Tlsn.Drive

open Tlsn.Client

variable {cfg : ClientCfg} {W : World}

/-- crates/tlsn/src/prover.rs:407-415: data of the application is there, but the client does not take any. -/
def Driver.wakesApp (d : Driver) : Bool := !d.appIn.isEmpty && !d.client.wantsWrite

/-- crates/tlsn/src/prover.rs:424-433: bytes were read from the socket. -/
def Env.wakesSocket (e : Env) : Bool :=
  match e.socketRead with
  | .data b => !b.isEmpty
  | _ => false

/-- crates/tlsn/src/prover.rs:437-448: the client has taken bytes of the server, or does not take any that are there. -/
def Driver.wakesServer (cfg : ClientCfg) (W : World) (e : Env) (d : Driver) : Bool :=
  !d.fromServer.isEmpty &&
    if d.client.wantsReadTls then
      match (d.client.readTls cfg W (d.fromServer.take (e.serverGet + 1))).2 with
      | .count n => decide (0 < n)
      | _ => false
    else true

/-- crates/tlsn/src/prover/client/mpc.rs:286-290: the only way out of `poll` in the state `CloseActive`. -/
def wakesClient (p : Driver × PRes) : Bool := p.2 == .pending && p.1.client.phase == .closeActive

/-- crates/tlsn/src/prover.rs:462-471: there is room for bytes to the server, none were written, and the client has some. -/
def Driver.wakesGive (cfg : ClientCfg) (W : World) (e : Env) (d : Driver) : Bool :=
  decide (0 < e.room) && match d.client.writeTls cfg W e.room with
    | (c, .data b) => b.isEmpty && c.open? && c.inner.conn.wantsWrite
    | _ => false

/-- Whether a poll of the connected prover wakes its own task: crates/tlsn/src/prover.rs:296-317, in the order of the calls. -/
def Driver.wakes (cfg : ClientCfg) (X : Outside) (e : Env) (d : Driver) : Bool :=
  d.wakesApp || e.wakesSocket || ((d.takeApp cfg X.W e).takeSocket e).1.wakesServer cfg X.W e ||
    (!(d.ioTo cfg X.W e).1.output && wakesClient ((d.ioTo cfg X.W e).1.pollClient cfg X e)) ||
    ((d.ioTo cfg X.W e).1.pollClient cfg X e).1.wakesGive cfg X.W e

/-- Whether something that happens between two polls wakes the task.  The pipes wake the task that waits for their bytes.
crates/tlsn/src/prover/client.rs:71-73 `enable_decryption` stores the choice, and nothing more. -/
def Act.wakes : Act → Bool
  | .poll _ => false
  | .appWrite _ => true
  | .appClose => true
  | .appRead _ => true
  | .setDecrypt _ => false

/-- Whether the task is due to be polled after a history, apart from the socket and the futures of the leader: it is at first, and a
poll which returns leaves it due only if it has woken the task. -/
def Driver.due (cfg : ClientCfg) (X : Outside) : Driver → List Act → Bool → Bool
  | _, [], due => due
  | d, .poll e :: acts, _ => Driver.due cfg X (d.step cfg X (.poll e)).1 acts (d.wakes cfg X e)
  | d, a :: acts, due => Driver.due cfg X (d.step cfg X a).1 acts (due || a.wakes)

/-! ## The deframer has room while the client is at hand -/

/-- The deframer has not failed, and has room. -/
def Roomy (c : Conn) : Prop := c.io.deframer.desynced = false

theorem roomy_reads {c0 : Conn} (h : Conn.new cfg = .ok c0) (l : List Call) (hr : Roomy (c0.run cfg W l).1) (b : Bytes) (hb : b ≠ []) :
    0 < ((c0.run cfg W l).1.io.deframer.read b).2 := by
  obtain ⟨R, -, hd⟩ := whole_run (cfg := cfg) W h l
  rw [(deframerInv_read hd b).2]
  have h1 := splitAll_rest opaqueFront_stable (wireIn (c0.run cfg W l).2)
  rw [hd.split] at h1
  simp only [show (c0.run cfg W l).1.io.deframer.desynced = false from hr] at h1
  have h2 := opaqueFront_more_length (by simpa using h1)
  rw [List.length_take, hd.len, Nat.min_eq_left hd.used] at h2
  have : 0 < b.length := List.length_pos_iff.2 hb
  omega

theorem roomy_start (c : Conn) (h : Roomy c) : Roomy (callStart cfg W c).1 := by
  unfold Roomy callStart at *
  cases hs : c.state with
  | error e => exact h
  | ok s =>
    cases s with
    | initial =>
      simp only
      rcases startHandshake cfg W c.io.common with ⟨cm, r⟩
      cases r <;> exact h
    | _ => exact h

theorem exec_roomy (n : Nat) (fut : Fut) (i j : Inner) (h : fut.exec cfg W n i = (j, .ok)) (hs : fut = .start → Roomy i.conn) :
    Roomy j.conn := by
  cases fut with
  | start =>
    have h1 : j = (i.call cfg W .start).1 := (Prod.mk.inj h).1.symm
    rw [h1]
    exact roomy_start _ (hs rfl)
  | run => exact (run_ok n i j h).synced
  | serverClose => exact (serverClose_ok n i j h).1.synced
  | clientClose =>
    change clientCloseFut cfg W n i = _ at h
    unfold clientCloseFut at h
    have h1 := run_ok (cfg := cfg) (W := W) n i
    revert h h1
    rcases runFut cfg W n i with ⟨i1, r⟩
    intro h h1
    cases r with
    | ok =>
      have h2 : Roomy i1.conn := (h1 i1 rfl).synced
      simp only at h
      split at h
      · cases h; exact h2
      · have h3 : Roomy (i1.call cfg W .sendCloseNotify).1.conn := h2
        revert h h3
        rcases i1.call cfg W .sendCloseNotify with ⟨i2, r2⟩
        intro h h3
        cases r2 <;> cases h <;> exact h3
    | _ => cases h

/-- The connection has not been started. -/
def Phase.fresh : Phase → Bool
  | .start | .busy .start | .closeBusy .start => true
  | _ => false

/-- While the connection is at hand or has not been started, the deframer has not failed. -/
def Sync (c : MpcClient) : Prop := (c.phase.fresh = true ∨ c.open? = true) → Roomy c.inner.conn

theorem activate_phase (c : MpcClient) : (c.activate cfg W).phase.fresh = false := by
  unfold MpcClient.activate
  repeat' split
  all_goals rfl

theorem sync_poll (X : Outside) (f : Nat) (t : Ticks) (c : MpcClient)
    (h : c.phase.fresh = true → Roomy c.inner.conn) :
    ((c.poll cfg X f t).2 = .pending → Sync (c.poll cfg X f t).1) ∧
      ((c.poll cfg X f t).2 = .ready → (c.poll cfg X f t).1.phase = .finished) := by
  induction f generalizing t c with
  | zero => exact ⟨(fun h => nomatch h), (fun h => nomatch h)⟩
  | succ f ih =>
    have hwait : c.open? = false → Sync c := fun ho h' => h (h'.resolve_right (by rw [ho]; simp))
    have hfail : ∀ (i : Inner) (r : PRes), r ≠ .pending → r ≠ .ready → ((c.failed i r).2 = .pending → Sync (c.failed i r).1) ∧
        ((c.failed i r).2 = .ready → (c.failed i r).1.phase = .finished) :=
      fun i r h1 h2 => ⟨fun h => absurd h h1, fun h => absurd h h2⟩
    have hbad : ∀ r : FutRes, badEnd r ≠ .pending := fun r => by cases r <;> simp [badEnd]
    unfold MpcClient.poll
    cases hp : c.phase with
    | start => exact ih t _ fun _ => h (by rw [hp]; rfl)
    | active => exact ih t _ fun h' => absurd h' (by rw [activate_phase]; simp)
    | busy fut =>
      simp only
      cases t.fut 0 with
      | none =>
        exact ⟨(fun _ => hwait (by unfold MpcClient.open?; rw [hp])), (fun h => nomatch h)⟩
      | some n =>
        simp only
        have hx := exec_roomy (cfg := cfg) (W := X.W) n fut c.inner
        revert hx
        rcases fut.exec cfg X.W n c.inner with ⟨i, r⟩
        intro hx
        cases r with
        | ok =>
          have hi : Roomy i.conn := hx i rfl fun hf => h (by rw [hp, hf]; rfl)
          simp only
          split
          · exact ih _ _ fun _ => hi
          · exact ⟨(fun _ _ => hi), (fun h => nomatch h)⟩
        | err e => exact hfail _ _ (hbad _) (badEnd_ne _)
        | dropped => exact hfail _ _ (hbad _) (badEnd_ne _)
        | panicked => exact hfail _ _ (hbad _) (badEnd_ne _)
    | closeActive => exact ih t _ fun h' => nomatch h'
    | closeBusy fut =>
      simp only
      cases t.fut 0 with
      | none =>
        exact ⟨(fun _ => hwait (by unfold MpcClient.open?; rw [hp])), (fun h => nomatch h)⟩
      | some n =>
        simp only
        have hx := exec_roomy (cfg := cfg) (W := X.W) n fut c.inner
        have hst : fut = .start → Roomy c.inner.conn := fun hf => h (by rw [hp, hf]; rfl)
        revert hx
        rcases fut.exec cfg X.W n c.inner with ⟨i, r⟩
        intro hx
        cases r with
        | ok =>
          have hi : Roomy i.conn := hx i rfl hst
          simp only
          split
          · split
            · exact ih _ _ fun h' => nomatch h'
            · exact hfail _ _ (by simp) (by simp)
          · exact ⟨(fun _ _ => hi), (fun h => nomatch h)⟩
        | err e => exact hfail _ _ (hbad _) (badEnd_ne _)
        | dropped => exact hfail _ _ (hbad _) (badEnd_ne _)
        | panicked => exact hfail _ _ (hbad _) (badEnd_ne _)
    | finalizing =>
      simp only
      cases t.finalize with
      | none =>
        exact ⟨(fun _ => hwait (by unfold MpcClient.open?; rw [hp])), (fun h => nomatch h)⟩
      | some b =>
        cases b with
        | true => exact ⟨(fun h => nomatch h), (fun _ => rfl)⟩
        | false => exact hfail _ _ (by simp) (by simp)
    | finished => exact hfail _ _ (by simp) (by simp)
    | error => exact hfail _ _ (by simp) (by simp)

/-! ## The transfers -/

theorem callWrite_deframer (b : Bytes) (c : Conn) : (callWrite b c).1.io.deframer = c.io.deframer := by
  unfold callWrite; split <;> rfl

theorem takeApp_deframer (e : Env) (d : Driver) :
    (d.takeApp cfg W e).client.inner.conn.io.deframer = d.client.inner.conn.io.deframer := by
  unfold Driver.takeApp
  split
  · split
    · have h1 : (d.client.write cfg W (d.appIn.take (e.appGet + 1))).1.inner.conn.io.deframer = d.client.inner.conn.io.deframer := by
        unfold MpcClient.write
        split
        · exact callWrite_deframer _ _
        · rfl
      revert h1
      rcases d.client.write cfg W (d.appIn.take (e.appGet + 1)) with ⟨c, r⟩
      intro h1
      cases r <;> exact h1
    · rfl
  · split <;> rfl

theorem takeSocket_client (e : Env) (d : Driver) : (d.takeSocket e).1.client = d.client := by
  unfold Driver.takeSocket; cases e.socketRead <;> rfl

theorem takeServer_shut (e : Env) (d : Driver) (h : d.client.open? = false) :
    (d.takeServer cfg W e).client.inner = d.client.inner := by
  unfold Driver.takeServer MpcClient.wantsReadTls
  rw [h]
  split
  · rfl
  · split <;> rfl

theorem open_of_phase {c c' : MpcClient} (h : c'.phase = c.phase) : c'.open? = c.open? := by
  unfold MpcClient.open?; rw [h]

theorem ioTo_shut (e : Env) (d : Driver) (h : d.client.open? = false) :
    (d.ioTo cfg W e).1.client.inner.conn.io.deframer = d.client.inner.conn.io.deframer := by
  have h1 := takeApp_deframer (cfg := cfg) (W := W) e d
  have h2 := takeSocket_client e (d.takeApp cfg W e)
  have h3 : (d.takeApp cfg W e).client.open? = false := (open_of_phase (same_takeApp (cfg := cfg) (W := W) e d).phase).trans h
  unfold Driver.ioTo
  revert h1 h2
  rcases (d.takeApp cfg W e).takeSocket e with ⟨d1, err⟩
  intro h1 h2
  change d1.client = _ at h2
  cases err with
  | none =>
    show (d1.takeServer cfg W e).client.inner.conn.io.deframer = _
    rw [takeServer_shut e d1 (by rw [h2]; exact h3), h2]
    exact h1
  | some x => show d1.client.inner.conn.io.deframer = _; rw [h2]; exact h1

theorem ioFrom_deframer (e : Env) (d : Driver) :
    (d.ioFrom cfg W e).1.client.inner.conn.io.deframer = d.client.inner.conn.io.deframer := by
  have h1 : (d.giveServer cfg W e).client.inner.conn.io.deframer = d.client.inner.conn.io.deframer := by
    unfold Driver.giveServer
    have h : (d.client.writeTls cfg W e.room).1.inner.conn.io.deframer = d.client.inner.conn.io.deframer := by
      unfold MpcClient.writeTls; split <;> rfl
    revert h
    rcases d.client.writeTls cfg W e.room with ⟨c, r⟩
    intro h
    cases r <;> exact h
  have h2 : ((d.giveServer cfg W e).giveSocket e).1.client = (d.giveServer cfg W e).client := by
    unfold Driver.giveSocket; cases e.socketWrite <;> rfl
  unfold Driver.ioFrom
  revert h1 h2
  rcases (d.giveServer cfg W e).giveSocket e with ⟨d1, err⟩
  intro h1 h2
  change d1.client = _ at h2
  rw [← h2] at h1
  cases err with
  | none =>
    show (d1.giveApp cfg W e).1.client.inner.conn.io.deframer = _
    rw [← h1]
    unfold Driver.giveApp
    cases e.appSink with
    | takes room =>
      simp only
      split
      · have h : (d1.client.read cfg W room).1.inner.conn.io.deframer = d1.client.inner.conn.io.deframer := by
          unfold MpcClient.read; split <;> rfl
        revert h
        rcases d1.client.read cfg W room with ⟨c, r⟩
        intro h
        cases r <;> exact h
      · rfl
    | _ => rfl
  | some x => exact h1

/-- What holds of a prover between two polls. -/
structure Resting (d : Driver) : Prop where
  sync : Sync d.client
  output : d.output = true → d.client.open? = false

theorem fresh_shut {c : MpcClient} (h : c.phase.fresh = true) : c.open? = false := by
  unfold MpcClient.open?
  cases hp : c.phase <;> rw [hp] at h <;> first | rfl | cases h

theorem resting_poll (X : Outside) (e : Env) (d : Driver) (h : Resting d) (hp : (d.poll cfg X e).2 = .pending) :
    Resting (d.poll cfg X e).1 := by
  unfold Driver.poll at hp ⊢
  have g1 := same_ioTo (cfg := cfg) (W := X.W) e d
  have g2 := ioTo_shut (cfg := cfg) (W := X.W) e d
  revert hp g1 g2
  rcases d.ioTo cfg X.W e with ⟨d1, err⟩
  intro hp g1 g2
  cases err with
  | some x => cases hp
  | none =>
    simp only at hp ⊢
    have hopen : d1.client.open? = d.client.open? := open_of_phase g1.phase
    have hfresh : d1.client.phase.fresh = true → Roomy d1.client.inner.conn := by
      intro hf
      have hf' : d.client.phase.fresh = true := by rw [← g1.phase]; exact hf
      show d1.client.inner.conn.io.deframer.desynced = false
      rw [show d1.client.inner.conn.io.deframer = _ from g2 (fresh_shut hf')]
      exact h.sync (.inl hf')
    have hc : (d1.pollClient cfg X e).2 = .pending → Resting (d1.pollClient cfg X e).1 := by
      unfold Driver.pollClient
      by_cases ho : d1.output = true
      · rw [if_pos ho]
        have ho' : d1.client.open? = false := hopen.trans (h.output (g1.output.symm.trans ho))
        exact fun _ => ⟨fun h' => h'.elim hfresh fun h' => absurd h' (by rw [ho']; simp), fun _ => ho'⟩
      · rw [if_neg ho]
        have h1 := sync_poll (cfg := cfg) X e.fuel e.ticks d1.client hfresh
        revert h1
        rcases d1.client.poll cfg X e.fuel e.ticks with ⟨c, r⟩
        intro h1 hr
        cases r with
        | ready =>
          have hfin : c.phase = .finished := h1.2 rfl
          have ho' : c.open? = false := by unfold MpcClient.open?; rw [hfin]
          refine ⟨fun h' => absurd h' ?_, fun _ => ho'⟩
          show ¬ (c.phase.fresh = true ∨ c.open? = true)
          rw [hfin, ho']
          simp [Phase.fresh]
        | pending => exact ⟨h1.1 rfl, fun h' => absurd h' ho⟩
        | _ => cases hr
    revert hp hc
    rcases d1.pollClient cfg X e with ⟨d2, r⟩
    intro hp hc
    cases r with
    | pending =>
      have h2 := hc rfl
      have h3 := ioFrom_deframer (cfg := cfg) (W := X.W) e d2
      have h4 := same_ioFrom (cfg := cfg) (W := X.W) e d2
      simp only at hp ⊢
      revert hp h3 h4
      rcases d2.ioFrom cfg X.W e with ⟨d3, err⟩
      intro hp h3 h4
      cases err with
      | some x => cases hp
      | none =>
        have ho3 : d3.client.open? = d2.client.open? := open_of_phase h4.phase
        refine ⟨fun h' => ?_, fun h' => ho3.trans (h2.output (h4.output.symm.trans h'))⟩
        show d3.client.inner.conn.io.deframer.desynced = false
        rw [show d3.client.inner.conn.io.deframer = _ from h3]
        exact h2.sync (h'.imp (fun h => by rw [← h4.phase]; exact h) fun h => by rw [← ho3]; exact h)
    | _ => cases hp

theorem resting_run (X : Outside) {c0 : Conn} (h : Conn.new cfg = .ok c0) (b : Bool) (acts : List Act) :
    ((Driver.new c0 b).run cfg X acts).1.phase = .connected → Resting ((Driver.new c0 b).run cfg X acts).1 := by
  refine Sdk.runCalls_inv (P := fun d _ => d.phase = .connected → Resting d) ?_ (fun d _ a hd => ?_) acts
  · refine fun _ => ⟨fun _ => ?_, fun h' => nomatch h'⟩
    unfold Conn.new at h
    split at h
    · cases h
    · cases h; rfl
  · cases a with
    | poll e =>
      intro hp
      change (d.pollFuture cfg X e).1.phase = .connected at hp
      show Resting (d.pollFuture cfg X e).1
      have hfin : ∀ (d : Driver) err, (d.finishing e err).1.phase ≠ .connected := by
        intro d err
        unfold Driver.finishing
        cases e.finish with
        | none => simp
        | some ok =>
          cases err with
          | some x => simp
          | none => cases ok <;> simp
      unfold Driver.pollFuture at hp ⊢
      cases hph : d.phase with
      | connected =>
        rw [hph] at hp
        simp only at hp ⊢
        have h1 := resting_poll (cfg := cfg) X e d (hd hph)
        revert hp h1
        rcases d.poll cfg X e with ⟨d1, r⟩
        intro hp h1
        cases r with
        | pending => exact h1 rfl
        | ready => exact absurd hp (hfin _ _)
        | err x => exact absurd hp (hfin _ _)
        | _ => cases hp
      | finishing err => rw [hph] at hp; exact absurd hp (hfin _ _)
      | done => rw [hph] at hp; cases hp
      | error => rw [hph] at hp; simp only at hp; rw [hph] at hp; cases hp
    | appWrite x =>
      by_cases hcl : d.appClosed = true
      · rw [show (d.step cfg X (.appWrite x)).1 = d from if_pos hcl]; exact hd
      · rw [show (d.step cfg X (.appWrite x)).1 = _ from if_neg hcl]; exact fun hp => ⟨(hd hp).sync, (hd hp).output⟩
    | _ => exact fun hp => ⟨(hd hp).sync, (hd hp).output⟩

/-! ## What a poll that wakes nobody leaves -/

theorem appendLimited_pos (v : VecBuf) (hv : v.isFull = false) (b : Bytes) (hb : b ≠ []) : 0 < (v.appendLimited b).2 := by
  have : 0 < b.length := List.length_pos_iff.2 hb
  show 0 < v.applyLimit b.length
  unfold VecBuf.applyLimit
  unfold VecBuf.isFull at hv
  cases hl : v.limit with
  | none => exact this
  | some l =>
    rw [hl] at hv
    simp only [ge_iff_le, decide_eq_false_iff_not] at hv ⊢
    omega

/-- Bytes of the application that wait are taken, one at least. -/
theorem takeApp_takes (e : Env) (d : Driver) (ha : d.appIn ≠ []) (hw : d.client.wantsWrite = true) :
    (d.takeApp cfg W e).appIn.length < d.appIn.length := by
  have hne : d.appIn.take (e.appGet + 1) ≠ [] := by simpa using ha
  have hw' : (d.client.open? && !d.client.inner.conn.io.common.sendable.isFull) = true := hw
  have hfull : d.client.inner.conn.io.common.sendable.isFull = false := by
    simp only [Bool.and_eq_true, Bool.not_eq_true'] at hw'; exact hw'.2
  unfold Driver.takeApp
  rw [if_pos ha, if_pos hw]
  have hr : (d.client.write cfg W (d.appIn.take (e.appGet + 1))).2 =
      .count (d.client.inner.conn.io.common.sendable.appendLimited (d.appIn.take (e.appGet + 1))).2 := by
    unfold MpcClient.write
    rw [if_pos hw']
    show (callWrite _ _).2 = _
    unfold callWrite
    rw [if_neg (by simpa using ha)]
  have hpos := appendLimited_pos _ hfull _ hne
  revert hr
  rcases d.client.write cfg W (d.appIn.take (e.appGet + 1)) with ⟨c, r⟩
  intro hr
  change r = _ at hr
  subst hr
  show (d.appIn.drop _).length < _
  rw [List.length_drop]
  have : 0 < d.appIn.length := List.length_pos_iff.2 ha
  omega

theorem ioFrom_keeps (e : Env) (d : Driver) : (d.ioFrom cfg W e).1.fromServer = d.fromServer ∧ (d.ioFrom cfg W e).1.appIn = d.appIn := by
  have h1 : (d.giveServer cfg W e).fromServer = d.fromServer ∧ (d.giveServer cfg W e).appIn = d.appIn := by
    unfold Driver.giveServer; split <;> exact ⟨rfl, rfl⟩
  have h2 : ((d.giveServer cfg W e).giveSocket e).1.fromServer = (d.giveServer cfg W e).fromServer ∧
      ((d.giveServer cfg W e).giveSocket e).1.appIn = (d.giveServer cfg W e).appIn := by
    unfold Driver.giveSocket; cases e.socketWrite <;> exact ⟨rfl, rfl⟩
  unfold Driver.ioFrom
  revert h2
  rcases (d.giveServer cfg W e).giveSocket e with ⟨d1, err⟩
  intro h2
  rw [← h1.1, ← h1.2, ← h2.1, ← h2.2]
  cases err with
  | some x => exact ⟨rfl, rfl⟩
  | none =>
    show (d1.giveApp cfg W e).1.fromServer = _ ∧ (d1.giveApp cfg W e).1.appIn = _
    unfold Driver.giveApp
    cases e.appSink with
    | takes room =>
      simp only
      split
      · split <;> exact ⟨rfl, rfl⟩
      · exact ⟨rfl, rfl⟩
    | _ => exact ⟨rfl, rfl⟩

theorem pollClient_keeps (X : Outside) (e : Env) (d : Driver) :
    (d.pollClient cfg X e).1.fromServer = d.fromServer ∧ (d.pollClient cfg X e).1.appIn = d.appIn := by
  unfold Driver.pollClient
  split
  · exact ⟨rfl, rfl⟩
  · split <;> exact ⟨rfl, rfl⟩

theorem takeSocket_appIn (e : Env) (d : Driver) : (d.takeSocket e).1.appIn = d.appIn := by
  unfold Driver.takeSocket; cases e.socketRead <;> rfl

theorem takeServer_appIn (e : Env) (d : Driver) : (d.takeServer cfg W e).appIn = d.appIn := by
  unfold Driver.takeServer
  split
  · split
    · split <;> rfl
    · rfl
  · split <;> rfl

/-- C140.  If a poll returns `Pending` and does not wake its task, then the socket had nothing to read (so that it keeps the waker) or is
at its end; all bytes that the socket has given are with the TLS client; of the bytes of the application that waited at least one was
taken; and the client is not between two steps of closing.  Missing: the bytes of the application that were not taken, and a
change of the choice to decrypt (`C140_choice_not_noticed`), do not wake the task. -/
theorem C140_quiet_partial (X : Outside) (c0 : Conn) (h : Conn.new cfg = .ok c0) (b : Bool) (acts : List Act) (e : Env) :
    let d := ((Driver.new c0 b).run cfg X acts).1
    let d' := (d.step cfg X (.poll e)).1
    d.phase = .connected → (d.step cfg X (.poll e)).2 = .pending → d'.phase = .connected → d.wakes cfg X e = false →
    (e.socketRead = .pending ∨ e.socketRead = .eof ∨ e.socketRead = .data []) ∧
    d'.fromServer = [] ∧
    (d.appIn ≠ [] → d'.appIn.length < d.appIn.length) ∧
    d'.client.phase ≠ .closeActive := by
  intro d d' hp hr hp' hq
  have hrest : Resting d := resting_run X h b acts hp
  have hkept : Kept cfg X.W c0 d := kept_run X c0 b acts
  have hd' : d' = (d.pollFuture cfg X e).1 := rfl
  change (d.pollFuture cfg X e).2 = .pending at hr
  clear_value d'
  subst hd'
  clear_value d
  unfold Driver.wakes at hq
  simp only [Bool.or_eq_false_iff] at hq
  obtain ⟨⟨⟨⟨q1, q2⟩, q3⟩, q4⟩, q5⟩ := hq
  have hfin : ∀ (d : Driver) err, (d.finishing e err).1.phase ≠ .connected := by
    intro d err
    unfold Driver.finishing
    cases e.finish with
    | none => simp
    | some ok =>
      cases err with
      | some x => simp
      | none => cases ok <;> simp
  -- the poll was pending
  have hpoll : (d.poll cfg X e).2 = .pending ∧ (d.pollFuture cfg X e).1 = (d.poll cfg X e).1 := by
    unfold Driver.pollFuture at hr hp' ⊢
    rw [hp] at hr hp' ⊢
    simp only at hr hp' ⊢
    revert hr hp'
    rcases d.poll cfg X e with ⟨d1, r⟩
    intro hr hp'
    cases r with
    | pending => exact ⟨rfl, rfl⟩
    | ready => exact absurd hp' (hfin _ _)
    | err x => exact absurd hp' (hfin _ _)
    | _ => cases hr
  rw [hpoll.2]
  have hpe := hpoll.1
  clear hr hp' hpoll hfin
  -- the socket
  have hsock : e.socketRead = .pending ∨ e.socketRead = .eof ∨ e.socketRead = .data [] ∨ e.socketRead = .failed := by
    unfold Env.wakesSocket at q2
    cases hs : e.socketRead with
    | data x => rw [hs] at q2; simp only [Bool.not_eq_false', List.isEmpty_iff] at q2; subst q2; simp
    | _ => simp
  -- the bytes of the server
  have hk1 := kept_takeApp (cfg := cfg) (W := X.W) e d hkept
  have hs1 := same_takeApp (cfg := cfg) (W := X.W) e d
  have hf1 := takeApp_deframer (cfg := cfg) (W := X.W) e d
  have hcl := takeSocket_client e (d.takeApp cfg X.W e)
  have hempty : ((d.takeApp cfg X.W e).takeSocket e).1.fromServer = [] := by
    by_contra hne
    unfold Driver.wakesServer at q3
    rw [show ((d.takeApp cfg X.W e).takeSocket e).1.fromServer.isEmpty = false by
      cases hl : ((d.takeApp cfg X.W e).takeSocket e).1.fromServer with
      | nil => exact absurd hl hne
      | cons x y => rfl] at q3
    simp only [Bool.not_false, Bool.true_and] at q3
    by_cases hw : ((d.takeApp cfg X.W e).takeSocket e).1.client.wantsReadTls = true
    · rw [if_pos hw] at q3
      unfold MpcClient.readTls at q3
      have hw' : (((d.takeApp cfg X.W e).takeSocket e).1.client.open? &&
        ((d.takeApp cfg X.W e).takeSocket e).1.client.inner.conn.wantsRead) = true := hw
      rw [if_pos hw'] at q3
      rw [hcl] at q3 hw'
      simp only [Bool.and_eq_true] at hw'
      obtain ⟨l, hl⟩ := hk1.ran
      have hl1 : (c0.run cfg X.W l).1 = (d.takeApp cfg X.W e).client.inner.conn := by rw [hl]; rfl
      have hroom : Roomy (c0.run cfg X.W l).1 := by
        rw [hl1]
        show (d.takeApp cfg X.W e).client.inner.conn.io.deframer.desynced = false
        rw [hf1]
        exact hrest.sync (.inr ((open_of_phase hs1.phase).symm.trans hw'.1))
      have hpos := roomy_reads h l hroom ((((d.takeApp cfg X.W e).takeSocket e).1.fromServer).take (e.serverGet + 1)) (by simpa using hne)
      rw [hl1] at hpos
      have q3' : decide (0 < ((d.takeApp cfg X.W e).client.inner.conn.io.deframer.read
        ((((d.takeApp cfg X.W e).takeSocket e).1.fromServer).take (e.serverGet + 1))).2) = false := q3
      rw [decide_eq_false_iff_not] at q3'
      exact q3' hpos
    · rw [if_neg hw] at q3; cases q3
  -- the bytes of the application
  have happ : d.appIn ≠ [] → ((d.takeApp cfg X.W e).takeSocket e).1.appIn.length < d.appIn.length := by
    intro hne
    rw [takeSocket_appIn]
    refine takeApp_takes e d hne ?_
    unfold Driver.wakesApp at q1
    by_contra hw
    rw [show d.client.wantsWrite = false by simpa using hw] at q1
    cases hl : d.appIn with
    | nil => exact hne hl
    | cons x y => rw [hl] at q1; cases q1
  have hout : (d.ioTo cfg X.W e).1.output = true → (d.ioTo cfg X.W e).1.client.open? = false := fun ho =>
    (open_of_phase (same_ioTo (cfg := cfg) (W := X.W) e d).phase).trans
      (hrest.output ((same_ioTo (cfg := cfg) (W := X.W) e d).output.symm.trans ho))
  clear q1 q2 q3 q5 hk1 hs1 hf1 hcl hrest hkept
  unfold Driver.poll at hpe ⊢
  have hto : (d.ioTo cfg X.W e).2 = none → (d.ioTo cfg X.W e).1.fromServer = [] ∧
      (d.appIn ≠ [] → (d.ioTo cfg X.W e).1.appIn.length < d.appIn.length) ∧ e.socketRead ≠ .failed := by
    unfold Driver.ioTo
    have hfail : e.socketRead = .failed → ((d.takeApp cfg X.W e).takeSocket e).2 = some .io := by
      intro hs; unfold Driver.takeSocket; rw [hs]
    revert hempty happ hfail
    rcases (d.takeApp cfg X.W e).takeSocket e with ⟨d1, err⟩
    intro hempty happ hfail hn
    cases err with
    | some x => cases hn
    | none =>
      refine ⟨?_, fun hne => ?_, fun hs => nomatch hfail hs⟩
      · show (d1.takeServer cfg X.W e).fromServer = []
        have hempty : d1.fromServer = [] := hempty
        unfold Driver.takeServer
        rw [if_neg (by simp [hempty])]
        split <;> exact hempty
      · show (d1.takeServer cfg X.W e).appIn.length < _
        rw [takeServer_appIn]
        exact happ hne
  revert hpe hto q4 hout
  rcases d.ioTo cfg X.W e with ⟨d1, err⟩
  intro q4 hpe hout hto
  cases err with
  | some x => cases hpe
  | none =>
    obtain ⟨t1, t2, t3⟩ := hto rfl
    have k1 := pollClient_keeps (cfg := cfg) X e d1
    have hcp : (d1.pollClient cfg X e).2 = .pending → (d1.pollClient cfg X e).1.client.phase ≠ .closeActive := by
      by_cases ho : d1.output = true
      · have ho' : d1.client.open? = false := hout ho
        intro _ hca
        unfold Driver.pollClient at hca
        rw [if_pos ho] at hca
        unfold MpcClient.open? at ho'
        rw [show d1.client.phase = .closeActive from hca] at ho'
        cases ho'
      · intro hpd hca
        unfold wakesClient at q4
        change (!d1.output && ((d1.pollClient cfg X e).2 == .pending && (d1.pollClient cfg X e).1.client.phase == .closeActive)) = false at q4
        rw [show d1.output = false by simpa using ho, hpd, hca] at q4
        simp at q4
    simp only at hpe ⊢
    revert hpe k1 hcp
    rcases d1.pollClient cfg X e with ⟨d2, r⟩
    intro hpe k1 hcp
    cases r with
    | pending =>
      simp only at hpe ⊢
      have k2 := ioFrom_keeps (cfg := cfg) (W := X.W) e d2
      have k3 := (same_ioFrom (cfg := cfg) (W := X.W) e d2).phase
      revert hpe k2 k3
      rcases d2.ioFrom cfg X.W e with ⟨d3, err⟩
      intro hpe k2 k3
      cases err with
      | some x => cases hpe
      | none =>
        refine ⟨?_, ?_, fun hne => ?_, ?_⟩
        · rcases hsock with h | h | h | h
          · exact .inl h
          · exact .inr (.inl h)
          · exact .inr (.inr h)
          · exact absurd h t3
        · exact k2.1.trans (k1.1.trans t1)
        · have := t2 hne
          rw [show d3.appIn = d1.appIn from k2.2.trans k1.2]
          exact this
        · rw [show d3.client.phase = d2.client.phase from k3]
          exact hcp rfl
    | _ => cases hpe

/-- C140: such a poll, after the handshake and three bytes of the application, one of which was still there. -/
example : let d := ((Driver.new demoConn true).run demoCfg demoOut (demoOpen ++ [.appRead 2, .appWrite [4]])).1
    d.phase = .connected ∧ (d.step demoCfg demoOut (.poll (demoEnv .pending))).2 = .pending ∧
    (d.step demoCfg demoOut (.poll (demoEnv .pending))).1.phase = .connected ∧ d.wakes demoCfg demoOut (demoEnv .pending) = false ∧
    d.appIn = [4] := by
  refine ⟨?_, ?_, ?_, ?_, ?_⟩ <;> decide +kernel

/-- C140, a disagreement.  While the client waits for a future, as when the leader waits for the verifier, every poll wakes its own task if
bytes of the application or of the server are waiting: the task is polled again and again without any progress. -/
theorem C140_polled_in_vain (X : Outside) (e : Env) (d : Driver) (hc : d.client.open? = false)
    (hw : d.appIn ≠ [] ∨ d.fromServer ≠ []) : d.wakes cfg X e = true := by
  unfold Driver.wakes
  rcases hw with hw | hw
  · have h1 : d.wakesApp = true := by
      unfold Driver.wakesApp MpcClient.wantsWrite
      rw [hc]
      cases hl : d.appIn with
      | nil => exact absurd hl hw
      | cons x y => rfl
    rw [h1]
    rfl
  · have h1 : (d.takeApp cfg X.W e).fromServer = d.fromServer := by
      unfold Driver.takeApp
      split
      · split
        · split <;> rfl
        · rfl
      · split <;> rfl
    have h2 : ((d.takeApp cfg X.W e).takeSocket e).1.fromServer ≠ [] := by
      unfold Driver.takeSocket
      cases e.socketRead with
      | data b => simp only [h1]; simp [hw]
      | _ => simp only [h1]; exact hw
    have h3 : ((d.takeApp cfg X.W e).takeSocket e).1.client.open? = false := by
      rw [takeSocket_client]
      exact (open_of_phase (same_takeApp (cfg := cfg) (W := X.W) e d).phase).trans hc
    have h4 : ((d.takeApp cfg X.W e).takeSocket e).1.wakesServer cfg X.W e = true := by
      unfold Driver.wakesServer MpcClient.wantsReadTls
      rw [h3]
      cases hl : ((d.takeApp cfg X.W e).takeSocket e).1.fromServer with
      | nil => exact absurd hl h2
      | cons x y => rfl
    rw [h4]
    simp

/-- A poll during which no future is ready. -/
def demoStuck : Env := { demoEnv .pending with ticks := ⟨fun _ => none, none⟩ }

/-- C140: the application writes while the client waits. -/
example : let d := ((Driver.new demoConn true).run demoCfg demoOut (demoOpen ++ [.poll demoStuck, .appWrite [4]])).1
    d.phase = .connected ∧ d.client.open? = false ∧ d.appIn ≠ [] ∧
    (d.run demoCfg demoOut [.poll demoStuck, .poll demoStuck]).1.appIn = [4] := by
  refine ⟨?_, ?_, ?_, ?_⟩ <;> decide +kernel

/-- The leader of the example, which decrypts application data only when it is told to. -/
def heldWorld : World := { demoWorld with
  nextIn := fun log =>
    match demoWorld.nextIn log with
    | .ok (some m) => if m.typ = .applicationData ∧ settingAt false log = false then .ok none else .ok (some m)
    | r => r }

def heldOut : Outside := ⟨heldWorld, fun _ => true, fun _ => true⟩

/-- C140 and C87, a disagreement.  The prover starts without decryption and the server's data has arrived.  The user enables decryption.
This does not wake the task, which is not due to be polled, although the next poll would give the application two bytes that it has
been waiting for. -/
theorem C140_choice_not_noticed :
    let acts := demoOpen ++ [.poll (demoEnv .pending), .setDecrypt true]
    let d := ((Driver.new demoConn false).run demoCfg heldOut acts).1
    Conn.new demoCfg = .ok demoConn ∧ d.phase = .connected ∧
    Driver.due demoCfg heldOut (Driver.new demoConn false) acts true = false ∧
    d.appRead = [] ∧ d.appOut = [] ∧ d.client.inner.conn.io.common.received.isEmpty = true ∧
    (d.step demoCfg heldOut (.poll (demoEnv .pending))).1.appOut = [0x68, 0x69] := by
  refine ⟨rfl, ?_, ?_, ?_, ?_, ?_, ?_⟩ <;> decide +kernel

end Tlsn.Drive
