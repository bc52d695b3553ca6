import Verif.Drive.Stall

/-! # Switching decryption on and off -/

namespace Tlsn.Drive

open Tlsn.Client

variable {cfg : ClientCfg} {W : World}

/-- What the leader was told about decryption. -/
def settings (log : List Ev) : List Bool := log.filterMap Ev.enables

/-- What holds at the leader, if it started with `b`. -/
def settingAt (b : Bool) (log : List Ev) : Bool := ((settings log).getLast?).getD b

/-- The choices of the user, in order. -/
def choices (acts : List Act) : List Bool := acts.filterMap fun
  | .setDecrypt b => some b
  | _ => none

def Agree (b : Bool) (i : Inner) : Prop := i.decrypt = settingAt b i.conn.io.common.log

theorem exec_decrypt (n : Nat) (fut : Fut) (i : Inner) : (fut.exec cfg W n i).1.decrypt = i.decrypt := by
  cases fut with
  | start => rfl
  | run => exact (calls_run n i).2.2
  | serverClose =>
    show (serverCloseFut cfg W n i).1.decrypt = _
    unfold serverCloseFut
    have h := (calls_run (cfg := cfg) (W := W) n i).2.2
    revert h
    rcases runFut cfg W n i with ⟨j, r⟩
    intro h
    cases r <;> exact h
  | clientClose =>
    show (clientCloseFut cfg W n i).1.decrypt = _
    unfold clientCloseFut
    have h := (calls_run (cfg := cfg) (W := W) n i).2.2
    revert h
    rcases runFut cfg W n i with ⟨j, r⟩
    intro h
    cases r with
    | ok =>
      simp only
      split
      · exact h
      · have h2 : (j.call cfg W .sendCloseNotify).1.decrypt = j.decrypt := rfl
        revert h2
        rcases j.call cfg W .sendCloseNotify with ⟨l, reply⟩
        intro h2
        cases reply <;> exact h2.trans h
    | _ => exact h

theorem exec_settings (n : Nat) (fut : Fut) (i : Inner) : settings (fut.exec cfg W n i).1.conn.io.common.log = settings i.conn.io.common.log :=
  (exec_le n fut i).enables

theorem exec_agree (n : Nat) (fut : Fut) (b : Bool) (i : Inner) (h : Agree b i) : Agree b (fut.exec cfg W n i).1 := by
  unfold Agree settingAt
  rw [exec_settings, exec_decrypt]
  exact h

theorem enable_settings (x : Bool) (i : Inner) :
    settings (i.call cfg W (.enableDecryption x)).1.conn.io.common.log = settings i.conn.io.common.log ++ [x] := by
  show (i.conn.io.common.log ++ [Ev.enable x]).filterMap Ev.enables = _
  rw [List.filterMap_append]
  rfl

theorem ctl_activate (b : Bool) (c : MpcClient) (h : Agree b c.inner) : Agree b (c.activate cfg W).inner ∧
    ((c.activate cfg W).inner.decrypt = c.inner.decrypt ∨ (c.activate cfg W).inner.decrypt = c.decrypt) ∧
    (c.clientWantsClose = true → settings (c.activate cfg W).inner.conn.io.common.log = settings c.inner.conn.io.common.log) ∧
    (c.inner.conn.isHandshaking = false → c.serverClosed = false → c.clientWantsClose = false →
      (c.activate cfg W).inner.decrypt = c.decrypt) := by
  unfold MpcClient.activate
  by_cases hh : c.inner.conn.isHandshaking = true
  · rw [if_pos hh]; exact ⟨h, .inl rfl, fun _ => rfl, fun h => (by rw [hh] at h; cases h)⟩
  · rw [if_neg hh]
    by_cases hs : c.serverClosed = true
    · rw [if_pos hs]; exact ⟨h, .inl rfl, fun _ => rfl, fun _ h => (by rw [hs] at h; cases h)⟩
    · rw [if_neg hs]
      by_cases hw : c.clientWantsClose = true
      · rw [if_pos hw]; exact ⟨h, .inl rfl, fun _ => rfl, fun _ _ h => (by rw [hw] at h; cases h)⟩
      · rw [if_neg hw]
        by_cases hd : c.decrypt ≠ c.inner.decrypt
        · rw [if_pos hd]
          refine ⟨?_, .inr rfl, fun h => absurd h hw, fun _ _ _ => rfl⟩
          show c.decrypt = ((settings (c.inner.call cfg W (.enableDecryption c.decrypt)).1.conn.io.common.log).getLast?).getD b
          rw [enable_settings]
          simp
        · rw [if_neg hd]
          have hd' : c.decrypt = c.inner.decrypt := by simpa using hd
          exact ⟨h, .inl rfl, fun _ => rfl, fun _ _ _ => hd'.symm⟩

theorem ctl_poll (X : Outside) (b : Bool) (f : Nat) (t : Ticks) (c : MpcClient) (h : Agree b c.inner) :
    Agree b (c.poll cfg X f t).1.inner ∧
    ((c.poll cfg X f t).1.inner.decrypt = c.inner.decrypt ∨ (c.poll cfg X f t).1.inner.decrypt = c.decrypt) ∧
    (c.clientWantsClose = true → settings (c.poll cfg X f t).1.inner.conn.io.common.log = settings c.inner.conn.io.common.log) := by
  induction f generalizing t c with
  | zero => exact ⟨h, .inl rfl, fun _ => rfl⟩
  | succ f ih =>
    unfold MpcClient.poll
    cases hp : c.phase with
    | start => exact ih t { c with phase := .busy .start } h
    | active =>
      obtain ⟨h1, h2, h3, -⟩ := ctl_activate (cfg := cfg) (W := X.W) b c h
      obtain ⟨h4, h5, h6⟩ := ih t (c.activate cfg X.W) h1
      obtain ⟨-, f2, f3⟩ := activate_flags (cfg := cfg) (W := X.W) c
      refine ⟨h4, ?_, fun hw => (h6 (f2.trans hw)).trans (h3 hw)⟩
      rcases h5 with h5 | h5
      · rcases h2 with h2 | h2
        · exact .inl (h5.trans h2)
        · exact .inr (h5.trans h2)
      · exact .inr (h5.trans f3)
    | closeActive => exact ih t { c with phase := .closeBusy .run } h
    | finalizing =>
      simp only
      cases t.finalize with
      | none => exact ⟨h, .inl rfl, fun _ => rfl⟩
      | some b => cases b <;> exact ⟨h, .inl rfl, fun _ => rfl⟩
    | finished => exact ⟨h, .inl rfl, fun _ => rfl⟩
    | error => exact ⟨h, .inl rfl, fun _ => rfl⟩
    | busy fut =>
      simp only
      cases t.fut 0 with
      | none => exact ⟨h, .inl rfl, fun _ => rfl⟩
      | some n =>
        simp only
        have h1 := exec_agree (cfg := cfg) (W := X.W) n fut b c.inner h
        have h2 := exec_decrypt (cfg := cfg) (W := X.W) n fut c.inner
        have h3 := exec_settings (cfg := cfg) (W := X.W) n fut c.inner
        revert h1 h2 h3
        rcases fut.exec cfg X.W n c.inner with ⟨i, r⟩
        intro h1 h2 h3
        cases r with
        | ok =>
          simp only
          split
          · obtain ⟨h4, h5, h6⟩ := ih t.next { c with phase := .active, inner := i } h1
            exact ⟨h4, h5.imp_left fun h => h.trans h2, fun hw => (h6 hw).trans h3⟩
          · exact ⟨h1, .inl h2, fun _ => h3⟩
        | _ => exact ⟨h1, .inl h2, fun _ => h3⟩
    | closeBusy fut =>
      simp only
      cases t.fut 0 with
      | none => exact ⟨h, .inl rfl, fun _ => rfl⟩
      | some n =>
        simp only
        have h1 := exec_agree (cfg := cfg) (W := X.W) n fut b c.inner h
        have h2 := exec_decrypt (cfg := cfg) (W := X.W) n fut c.inner
        have h3 := exec_settings (cfg := cfg) (W := X.W) n fut c.inner
        revert h1 h2 h3
        rcases fut.exec cfg X.W n c.inner with ⟨i, r⟩
        intro h1 h2 h3
        cases r with
        | ok =>
          simp only
          split
          · split
            · obtain ⟨h4, h5, h6⟩ := ih t.next { c with phase := .finalizing, inner := i } h1
              exact ⟨h4, h5.imp_left fun h => h.trans h2, fun hw => (h6 hw).trans h3⟩
            · exact ⟨h1, .inl h2, fun _ => h3⟩
          · exact ⟨h1, .inl h2, fun _ => h3⟩
        | _ => exact ⟨h1, .inl h2, fun _ => h3⟩

/-- What the transfers between the prover and the client leave as it is. -/
structure Same (d d' : Driver) : Prop where
  log : d'.client.inner.conn.io.common.log = d.client.inner.conn.io.common.log
  inner : d'.client.inner.decrypt = d.client.inner.decrypt
  decrypt : d'.client.decrypt = d.client.decrypt
  handshaking : d'.client.inner.conn.isHandshaking = d.client.inner.conn.isHandshaking
  phase : d'.client.phase = d.client.phase
  output : d'.output = d.output
  wants : d.client.clientWantsClose = true → d'.client.clientWantsClose = true

theorem Same.refl (d : Driver) : Same d d := ⟨rfl, rfl, rfl, rfl, rfl, rfl, id⟩

theorem Same.trans {a b c : Driver} (h1 : Same a b) (h2 : Same b c) : Same a c :=
  ⟨h2.1.trans h1.1, h2.2.trans h1.2, h2.3.trans h1.3, h2.4.trans h1.4, h2.5.trans h1.5, h2.6.trans h1.6, h2.7 ∘ h1.7⟩

theorem same_takeApp (e : Env) (d : Driver) : Same d (d.takeApp cfg W e) := by
  unfold Driver.takeApp
  by_cases ha : d.appIn ≠ []
  · rw [if_pos ha]
    by_cases hw : d.client.wantsWrite = true
    · rw [if_pos hw]
      have hw' : (d.client.open? && !d.client.inner.conn.io.common.sendable.isFull) = true := hw
      unfold MpcClient.write
      rw [if_pos hw']
      have h1 : ∀ buf, (callWrite buf d.client.inner.conn).1.io.common.log = d.client.inner.conn.io.common.log ∧
          (callWrite buf d.client.inner.conn).1.isHandshaking = d.client.inner.conn.isHandshaking := by
        intro buf
        unfold callWrite
        split <;> exact ⟨rfl, rfl⟩
      have h2 : Same d { d with client := (d.client.call cfg W (.writePlaintext (d.appIn.take (e.appGet + 1)))).1 } :=
        ⟨(h1 _).1, rfl, rfl, (h1 _).2, rfl, rfl, id⟩
      revert h2
      rcases d.client.call cfg W (.writePlaintext (d.appIn.take (e.appGet + 1))) with ⟨c, r⟩
      intro h2
      cases r <;> exact ⟨h2.1, h2.2, h2.3, h2.4, h2.5, h2.6, h2.7⟩
    · rw [if_neg hw]; exact Same.refl d
  · rw [if_neg ha]
    split
    · exact ⟨rfl, rfl, rfl, rfl, rfl, rfl, fun _ => rfl⟩
    · exact Same.refl d

theorem same_takeServer (e : Env) (d : Driver) : Same d (d.takeServer cfg W e) := by
  unfold Driver.takeServer
  by_cases ha : d.fromServer ≠ []
  · rw [if_pos ha]
    by_cases hw : d.client.wantsReadTls = true
    · rw [if_pos hw]
      have hw' : (d.client.open? && d.client.inner.conn.wantsRead) = true := hw
      unfold MpcClient.readTls
      rw [if_pos hw']
      exact ⟨rfl, rfl, rfl, rfl, rfl, rfl, id⟩
    · rw [if_neg hw]; exact Same.refl d
  · rw [if_neg ha]
    split
    · exact ⟨rfl, rfl, rfl, rfl, rfl, rfl, id⟩
    · exact Same.refl d

theorem same_ioTo (e : Env) (d : Driver) : Same d (d.ioTo cfg W e).1 := by
  unfold Driver.ioTo
  have h1 := same_takeApp (cfg := cfg) (W := W) e d
  have h2 : Same (d.takeApp cfg W e) ((d.takeApp cfg W e).takeSocket e).1 := by
    unfold Driver.takeSocket
    cases e.socketRead <;> exact ⟨rfl, rfl, rfl, rfl, rfl, rfl, id⟩
  revert h2
  rcases (d.takeApp cfg W e).takeSocket e with ⟨d1, err⟩
  intro h2
  cases err with
  | none => exact (h1.trans h2).trans (same_takeServer e d1)
  | some x => exact h1.trans h2

theorem same_ioFrom (e : Env) (d : Driver) : Same d (d.ioFrom cfg W e).1 := by
  have h1 : Same d (d.giveServer cfg W e) := by
    unfold Driver.giveServer MpcClient.writeTls
    by_cases hw : (d.client.open? && d.client.inner.conn.wantsWrite) = true
    · rw [if_pos hw]; exact ⟨rfl, rfl, rfl, rfl, rfl, rfl, id⟩
    · rw [if_neg hw]; exact ⟨rfl, rfl, rfl, rfl, rfl, rfl, id⟩
  have h2 : Same (d.giveServer cfg W e) ((d.giveServer cfg W e).giveSocket e).1 := by
    unfold Driver.giveSocket
    cases e.socketWrite <;> exact ⟨rfl, rfl, rfl, rfl, rfl, rfl, id⟩
  unfold Driver.ioFrom
  revert h2
  rcases (d.giveServer cfg W e).giveSocket e with ⟨d1, err⟩
  intro h2
  refine (h1.trans h2).trans ?_
  cases err with
  | some x => exact Same.refl d1
  | none =>
    show Same d1 (d1.giveApp cfg W e).1
    unfold Driver.giveApp
    cases e.appSink with
    | takes room =>
      simp only
      split
      · unfold MpcClient.read
        by_cases hw : (d1.client.open? && !d1.client.inner.conn.io.common.received.isEmpty) = true
        · rw [if_pos hw]; exact ⟨rfl, rfl, rfl, rfl, rfl, rfl, id⟩
        · rw [if_neg hw]; exact ⟨rfl, rfl, rfl, rfl, rfl, rfl, id⟩
      · exact Same.refl d1
    | _ => exact Same.refl d1

/-- One step, as far as decryption is concerned. -/
structure Ctl (b : Bool) (d d' : Driver) : Prop where
  agree : Agree b d'.client.inner
  decrypt : d'.client.inner.decrypt = d.client.inner.decrypt ∨ d'.client.inner.decrypt = d.client.decrypt
  wants : d.client.clientWantsClose = true → d'.client.clientWantsClose = true ∧
    settings d'.client.inner.conn.io.common.log = settings d.client.inner.conn.io.common.log
  choice : d'.client.decrypt = d.client.decrypt

theorem Same.ctl {d d' : Driver} (h : Same d d') (b : Bool) (ha : Agree b d.client.inner) : Ctl b d d' :=
  ⟨by unfold Agree; rw [h.inner, h.log]; exact ha, .inl h.inner, fun hw => ⟨h.wants hw, by rw [h.log]⟩, h.decrypt⟩

theorem Ctl.same {a d d' : Driver} {b : Bool} (h1 : Ctl b a d) (h2 : Same d d') : Ctl b a d' :=
  ⟨by unfold Agree; rw [h2.inner, h2.log]; exact h1.agree, by rw [h2.inner]; exact h1.decrypt,
    fun hw => ⟨h2.wants (h1.wants hw).1, by rw [h2.log]; exact (h1.wants hw).2⟩, h2.decrypt.trans h1.choice⟩

theorem ctl_pollClient (X : Outside) (b : Bool) (e : Env) (a d : Driver) (h : Ctl b a d) (hs : Same a d) : Ctl b a (d.pollClient cfg X e).1 := by
  unfold Driver.pollClient
  split
  · exact h
  · obtain ⟨h1, h2, h3⟩ := ctl_poll (cfg := cfg) X b e.fuel e.ticks d.client h.agree
    obtain ⟨f1, f2⟩ := poll_flags (cfg := cfg) X e.fuel e.ticks d.client
    revert h1 h2 h3 f1 f2
    rcases d.client.poll cfg X e.fuel e.ticks with ⟨c, r⟩
    intro h1 h2 h3 f1 f2
    have hw : a.client.clientWantsClose = true → c.clientWantsClose = true ∧
        settings c.inner.conn.io.common.log = settings a.client.inner.conn.io.common.log := fun hw =>
      ⟨f1.trans (h.wants hw).1, (h3 (h.wants hw).1).trans (h.wants hw).2⟩
    have hd : c.inner.decrypt = a.client.inner.decrypt ∨ c.inner.decrypt = a.client.decrypt := by
      rcases h2 with h2 | h2
      · exact .inl (h2.trans hs.inner)
      · exact .inr (h2.trans hs.decrypt)
    cases r <;> exact ⟨h1, hd, hw, f2.trans h.choice⟩

theorem ctl_step (X : Outside) (b : Bool) (e : Env) (d : Driver) (h : Agree b d.client.inner) : Ctl b d (d.step cfg X (.poll e)).1 := by
  have hpoll : Ctl b d (d.poll cfg X e).1 := by
    unfold Driver.poll
    have h0 := same_ioTo (cfg := cfg) (W := X.W) e d
    revert h0
    rcases d.ioTo cfg X.W e with ⟨d1, err⟩
    intro h0
    cases err with
    | some x => exact h0.ctl b h
    | none =>
      simp only
      have h2 := ctl_pollClient (cfg := cfg) X b e d d1 (h0.ctl b h) h0
      revert h2
      rcases d1.pollClient cfg X e with ⟨d2, r⟩
      intro h2
      cases r with
      | pending =>
        simp only
        have h3 := h2.same (same_ioFrom (cfg := cfg) (W := X.W) e d2)
        revert h3
        rcases d2.ioFrom cfg X.W e with ⟨d3, err⟩
        intro h3
        cases err <;> exact h3
      | _ => exact h2
  have hfin : ∀ (d' : Driver) err, Ctl b d d' → Ctl b d (d'.finishing e err).1 := by
    intro d' err h'
    refine h'.same ?_
    unfold Driver.finishing
    cases e.finish with
    | none => exact ⟨rfl, rfl, rfl, rfl, rfl, rfl, id⟩
    | some ok =>
      cases err with
      | some x => exact ⟨rfl, rfl, rfl, rfl, rfl, rfl, id⟩
      | none => cases ok <;> exact ⟨rfl, rfl, rfl, rfl, rfl, rfl, id⟩
  show Ctl b d (d.pollFuture cfg X e).1
  unfold Driver.pollFuture
  cases d.phase with
  | connected =>
    simp only
    revert hpoll
    rcases d.poll cfg X e with ⟨d1, r⟩
    intro h1
    cases r with
    | ready => exact hfin _ _ h1
    | err x => exact hfin _ _ h1
    | pending => exact h1
    | _ => exact h1.same ⟨rfl, rfl, rfl, rfl, rfl, rfl, id⟩
  | finishing err => exact hfin d err ((Same.refl d).ctl b h)
  | done => exact ((Same.refl d).ctl b h).same ⟨rfl, rfl, rfl, rfl, rfl, rfl, id⟩
  | error => exact (Same.refl d).ctl b h

theorem choices_snoc (acts : List Act) (a : Act) : choices (acts ++ [a]) = choices acts ++ choices [a] := by
  unfold choices
  rw [List.filterMap_append]

/-- Over a whole history. -/
theorem ctl_run (X : Outside) (c0 : Conn) (h : Conn.new cfg = .ok c0) (b : Bool) (acts : List Act) :
    Agree b ((Driver.new c0 b).run cfg X acts).1.client.inner ∧
    ((Driver.new c0 b).run cfg X acts).1.client.decrypt = ((choices acts).getLast?).getD b ∧
    (((Driver.new c0 b).run cfg X acts).1.client.inner.decrypt ∈ b :: choices acts) := by
  induction acts using List.reverseRecOn with
  | nil =>
    refine ⟨?_, rfl, by simp [Driver.run, Sdk.runCalls, Driver.new, MpcClient.new]⟩
    show b = settingAt b c0.io.common.log
    have : c0.io.common.log = [] := by
      unfold Conn.new at h
      split at h
      · cases h
      · rename_i common hc
        cases h
        unfold Common.new at hc
        split at hc <;> first | (cases hc; rfl) | cases hc
    rw [this]
    rfl
  | append_singleton l a ih =>
    obtain ⟨h1, h2, h3⟩ := ih
    rw [show ((Driver.new c0 b).run cfg X (l ++ [a])).1 = (((Driver.new c0 b).run cfg X l).1.step cfg X a).1 from by
      rw [drive_snoc]]
    revert h1 h2 h3
    generalize ((Driver.new c0 b).run cfg X l).1 = d
    intro h1 h2 h3
    rw [choices_snoc]
    have hstill : choices [a] = [] → (d.step cfg X a).1.client.inner.decrypt = d.client.inner.decrypt ∨
        (d.step cfg X a).1.client.inner.decrypt = d.client.decrypt → (d.step cfg X a).1.client.inner.decrypt ∈ b :: (choices l ++ choices [a]) := by
      intro hc hd
      rw [hc, List.append_nil]
      rcases hd with hd | hd
      · rw [hd]; exact h3
      · rw [hd, h2]
        cases hl : (choices l).getLast? with
        | none => simp
        | some x => simp [List.mem_of_getLast? hl]
    cases a with
    | poll e =>
      have hc := ctl_step (cfg := cfg) X b e d h1
      refine ⟨hc.agree, ?_, hstill rfl hc.decrypt⟩
      rw [show choices [Act.poll e] = [] from rfl, List.append_nil]
      exact hc.choice.trans h2
    | setDecrypt x =>
      refine ⟨h1, ?_, ?_⟩
      · show x = ((choices l ++ [x]).getLast?).getD b
        simp
      · show d.client.inner.decrypt ∈ b :: (choices l ++ [x])
        rcases List.mem_cons.1 h3 with h3 | h3
        · rw [h3]; simp
        · simp [h3]
    | appWrite x =>
      rw [show choices [Act.appWrite x] = [] from rfl, List.append_nil]
      by_cases hcl : d.appClosed = true
      · rw [show (d.step cfg X (.appWrite x)).1 = d from if_pos hcl]; exact ⟨h1, h2, h3⟩
      · rw [show (d.step cfg X (.appWrite x)).1 = _ from if_neg hcl]; exact ⟨h1, h2, h3⟩
    | appClose => rw [show choices [Act.appClose] = [] from rfl, List.append_nil]; exact ⟨h1, h2, h3⟩
    | appRead n => rw [show choices [Act.appRead n] = [] from rfl, List.append_nil]; exact ⟨h1, h2, h3⟩

theorem ioTo_appClosed (e : Env) (d : Driver) : (d.ioTo cfg W e).1.appClosed = d.appClosed := by
  have h1 : (d.takeApp cfg W e).appClosed = d.appClosed := by
    unfold Driver.takeApp
    split
    · split
      · rcases d.client.write cfg W (d.appIn.take (e.appGet + 1)) with ⟨c, r⟩
        cases r <;> rfl
      · rfl
    · split <;> rfl
  have h2 : ((d.takeApp cfg W e).takeSocket e).1.appClosed = d.appClosed := by
    unfold Driver.takeSocket
    cases e.socketRead <;> exact h1
  unfold Driver.ioTo
  revert h2
  rcases (d.takeApp cfg W e).takeSocket e with ⟨d1, err⟩
  intro h2
  cases err with
  | some x => exact h2
  | none =>
    refine Eq.trans ?_ h2
    show (d1.takeServer cfg W e).appClosed = d1.appClosed
    unfold Driver.takeServer
    split
    · split
      · rcases d1.client.readTls cfg W (d1.fromServer.take (e.serverGet + 1)) with ⟨c, r⟩
        cases r <;> rfl
      · rfl
    · split <;> rfl

theorem ioTo_none (e : Env) (d : Driver) (h : e.socketRead ≠ .failed) : (d.ioTo cfg W e).2 = none := by
  unfold Driver.ioTo Driver.takeSocket
  cases hs : e.socketRead <;> first | rfl | exact absurd hs h

/-- An idle client is told. -/
theorem ctl_active (X : Outside) (b : Bool) (f : Nat) (t : Ticks) (c : MpcClient) (h : Agree b c.inner) (hf : f ≠ 0) (hp : c.phase = .active)
    (hh : c.inner.conn.isHandshaking = false) (hs : c.serverClosed = false) (hw : c.clientWantsClose = false) :
    (c.poll cfg X f t).1.inner.decrypt = c.decrypt := by
  cases f with
  | zero => exact absurd rfl hf
  | succ f =>
    unfold MpcClient.poll
    rw [hp]
    simp only
    obtain ⟨h1, -, -, h4⟩ := ctl_activate (cfg := cfg) (W := X.W) b c h
    obtain ⟨-, h5, -⟩ := ctl_poll (cfg := cfg) X b f t (c.activate cfg X.W) h1
    rcases h5 with h5 | h5
    · exact h5.trans (h4 hh hs hw)
    · exact h5.trans (activate_flags c).2.2

/-- C87.  The leader's setting is always one the user has chosen, or the one it started with.  A poll during which the client is not at
work, after the handshake and before either side closes, makes it the user's last choice.  Missing: after the application has
closed its side (`C87_ignored`). -/
theorem C87_control_partial (X : Outside) (c0 : Conn) (h : Conn.new cfg = .ok c0) (b : Bool) (acts : List Act) :
    let d := ((Driver.new c0 b).run cfg X acts).1
    settingAt b d.client.inner.conn.io.common.log ∈ b :: choices acts ∧
    ∀ e, d.phase = .connected → d.client.phase = .active → d.client.inner.conn.isHandshaking = false → d.appClosed = false →
      (∀ e', Act.poll e' ∈ acts ++ [.poll e] → e'.socketRead ≠ .eof) → e.socketRead ≠ .failed → e.fuel ≠ 0 →
      settingAt b (d.step cfg X (.poll e)).1.client.inner.conn.io.common.log = ((choices acts).getLast?).getD b := by
  intro d
  obtain ⟨h1, h2, h3⟩ := ctl_run X c0 h b acts
  refine ⟨?_, fun e hp ha hh hc he hf hfu => ?_⟩
  · rw [← show _ = settingAt b d.client.inner.conn.io.common.log from h1]; exact h3
  have hends : Ends X d := ends_run X c0 b acts fun pre e0 post e' hl he0 _ => absurd he0 (he e0 (by rw [hl]; simp))
  have ht : Told d := Sdk.runCalls_inv (P := fun d _ => Told d) (fun h => (by cases h)) (fun d _ a h => told_step X d a h) acts
  have hshut : Shut cfg X.W c0 d := shut_run X h b acts
  have hns : d.serverClosed ≠ true := by
    intro h0
    obtain ⟨e', h1, h2⟩ := closed_run X c0 b acts h0
    exact he e' (List.mem_append_left _ h1) h2
  have h1 : Agree b d.client.inner := h1
  have h2 : d.client.decrypt = _ := h2
  rw [← h2, ← show _ = settingAt b _ from (ctl_step (cfg := cfg) X b e d h1).agree]
  clear_value d
  have hout : d.output = false := by
    by_contra h0
    have := hends.output (by simpa using h0)
    rw [ha] at this
    cases this
  have hpoll : (d.poll cfg X e).1.client.inner.decrypt = d.client.decrypt := by
    unfold Driver.poll
    have g1 := same_ioTo (cfg := cfg) (W := X.W) e d
    have g2 := shut_ioTo (cfg := cfg) e d hshut
    have g3 := ioTo_appClosed (cfg := cfg) (W := X.W) e d
    have g4 := ioTo_none (cfg := cfg) (W := X.W) e d hf
    have g5 := (told_ioTo (cfg := cfg) (W := X.W) e d ht).1
    have g6 := ioTo_closed (cfg := cfg) (W := X.W) e d
    revert g1 g2 g3 g4 g5 g6
    rcases d.ioTo cfg X.W e with ⟨d1, err⟩
    intro g1 g2 g3 g4 g5 g6
    have g4 : err = none := g4
    subst g4
    simp only
    have hw : d1.client.clientWantsClose = false := by
      by_contra h0
      have := (g2.wants (by simpa using h0)).1
      rw [show d1.appClosed = false from g3.trans hc] at this
      cases this
    have hsc : d1.client.serverClosed = false := by
      by_contra h0
      rcases g6 (g5 (by simpa using h0)) with h | h
      · exact hns h
      · exact he e (by simp) h
    have hag : Agree b d1.client.inner := (g1.ctl b h1).agree
    have key := ctl_active (cfg := cfg) X b e.fuel e.ticks d1.client hag hfu (g1.phase.trans ha) (g1.handshaking.trans hh) hsc hw
    have hpc : (d1.pollClient cfg X e).1.client.inner.decrypt = d1.client.decrypt := by
      unfold Driver.pollClient
      rw [if_neg (by rw [show d1.output = false from g1.output.trans hout]; simp)]
      revert key
      rcases d1.client.poll cfg X e.fuel e.ticks with ⟨c, r⟩
      intro key
      cases r <;> exact key
    rw [← show d1.client.decrypt = d.client.decrypt from g1.decrypt]
    revert hpc
    rcases d1.pollClient cfg X e with ⟨d2, r⟩
    intro hpc
    cases r with
    | pending =>
      simp only
      have h3 := (same_ioFrom (cfg := cfg) (W := X.W) e d2).inner
      revert h3
      rcases d2.ioFrom cfg X.W e with ⟨d3, err⟩
      intro h3
      cases err <;> exact h3.trans hpc
    | _ => exact hpc
  have hfin : ∀ (d' : Driver) err, (d'.finishing e err).1.client = d'.client := by
    intro d' err
    unfold Driver.finishing
    cases e.finish with
    | none => rfl
    | some ok =>
      cases err with
      | some x => rfl
      | none => cases ok <;> rfl
  show (d.pollFuture cfg X e).1.client.inner.decrypt = _
  unfold Driver.pollFuture
  rw [hp]
  simp only
  revert hpoll
  rcases d.poll cfg X e with ⟨d1, r⟩
  intro hpoll
  cases r with
  | ready => simp only [hfin]; exact hpoll
  | err x => simp only [hfin]; exact hpoll
  | _ => exact hpoll

/-- C87, a disagreement.  Once the client has taken notice that the application has closed its side, the leader's setting does not change
any more, whatever the user chooses. -/
theorem C87_ignored (X : Outside) (c0 : Conn) (h : Conn.new cfg = .ok c0) (b : Bool) (acts more : List Act)
    (hw : ((Driver.new c0 b).run cfg X acts).1.client.clientWantsClose = true) :
    settingAt b ((Driver.new c0 b).run cfg X (acts ++ more)).1.client.inner.conn.io.common.log =
      settingAt b ((Driver.new c0 b).run cfg X acts).1.client.inner.conn.io.common.log := by
  suffices hsuf : ((Driver.new c0 b).run cfg X (acts ++ more)).1.client.clientWantsClose = true ∧
      settings ((Driver.new c0 b).run cfg X (acts ++ more)).1.client.inner.conn.io.common.log =
        settings ((Driver.new c0 b).run cfg X acts).1.client.inner.conn.io.common.log by
    unfold settingAt
    rw [hsuf.2]
  induction more using List.reverseRecOn with
  | nil => rw [List.append_nil]; exact ⟨hw, rfl⟩
  | append_singleton l a ih =>
    obtain ⟨h1, h2⟩ := ih
    have hag := (ctl_run X c0 h b (acts ++ l)).1
    rw [← List.append_assoc, show ((Driver.new c0 b).run cfg X (acts ++ l ++ [a])).1 =
      (((Driver.new c0 b).run cfg X (acts ++ l)).1.step cfg X a).1 from by rw [drive_snoc], ← h2]
    revert h1 hag
    generalize ((Driver.new c0 b).run cfg X (acts ++ l)).1 = d
    intro h1 hag
    cases a with
    | poll e => exact (ctl_step (cfg := cfg) X b e d hag).wants h1
    | appWrite x =>
      by_cases hcl : d.appClosed = true
      · rw [show (d.step cfg X (.appWrite x)).1 = d from if_pos hcl]; exact ⟨h1, rfl⟩
      · rw [show (d.step cfg X (.appWrite x)).1 = _ from if_neg hcl]; exact ⟨h1, rfl⟩
    | _ => exact ⟨h1, rfl⟩

end Tlsn.Drive
