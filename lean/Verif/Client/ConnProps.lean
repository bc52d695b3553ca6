import Verif.Client.Flight
import Verif.Sdk.MachineProps

/-! # The invariant of the connection -/

namespace Tlsn.Client

variable {cfg : ClientCfg} {fl : Flags} {L : List Ev} {v : View}

/-- `Triple` for functions of the whole connection. -/
def IoTriple {α : Type} (P : View → Prop) (f : M Io α) (Q : α → View → Prop) (E : View → Prop) : Prop :=
  ∀ io, P io.common.view → match f io with
    | (io', .ok a) => Q a io'.common.view
    | (io', _) => E io'.common.view

section
variable {α β : Type} {P P' : View → Prop} {Q Q' : α → View → Prop} {R : β → View → Prop} {E : View → Prop}

theorem IoTriple.bind {f : M Io α} {g : α → M Io β} (hf : IoTriple P f Q E) (hg : ∀ a, IoTriple (Q a) (g a) R E) :
    IoTriple P (f >>= g) R E := by
  intro c hc
  have h1 := hf c hc
  show match M.bind f g c with
    | (c', .ok a) => R a c'.common.view
    | (c', _) => E c'.common.view
  unfold M.bind
  revert h1
  rcases f c with ⟨c1, r⟩
  cases r with
  | ok a => intro h1; exact hg a c1 h1
  | err e => exact id
  | dropped => exact id
  | panicked => exact id

theorem IoTriple.pure {a : α} (h : ∀ v, P v → Q a v) : IoTriple P (Pure.pure a : M Io α) Q E := fun _ hc => h _ hc

theorem IoTriple.fail {e : CErr} (h : ∀ v, P v → E v) : IoTriple P (M.fail e : M Io α) Q E := fun _ hc => h _ hc

theorem IoTriple.get {g : Io → M Io β} (h : ∀ c, P c.common.view → IoTriple P (g c) R E) : IoTriple P (M.get >>= g) R E :=
  fun c hc => h c hc c hc

theorem IoTriple.getAt {g : Io → M Io β}
    (h : ∀ c, P c.common.view → IoTriple (fun v => P v ∧ v = c.common.view) (g c) R E) : IoTriple P (M.get >>= g) R E :=
  fun c hc => h c hc c ⟨hc, rfl⟩

theorem IoTriple.modify {g : Io → Io} {Q : Unit → View → Prop} (h : ∀ io, P io.common.view → Q () (g io).common.view) :
    IoTriple P (M.modify g) Q E := fun c hc => h c hc

theorem IoTriple.lift {f : M Common α} (h : Triple P f Q E) : IoTriple P (lift f) Q E := by
  intro io hio
  have := h io.common hio
  unfold Tlsn.Client.lift
  revert this
  rcases f io.common with ⟨c, r⟩
  cases r <;> exact id

theorem IoTriple.catching {f : M Io α} (h : IoTriple P f Q E) :
    IoTriple P (catching f) (fun r v => match r with | .ok a => Q a v | .error _ => E v) E := by
  intro io hio
  have := h io hio
  unfold Tlsn.Client.catching
  revert this
  rcases f io with ⟨c, r⟩
  cases r <;> exact id

end

/-! ## Messages -/

theorem rejecting_spec (W : World) {P : View → Prop} {f : M Common HState} {Q : HState → View → Prop}
    (h : Triple P f Q (Weak cfg)) : Triple P (rejecting W f) Q (Weak cfg) := by
  intro c hc
  have := h c hc
  unfold rejecting
  revert this
  rcases f c with ⟨c1, r⟩
  cases r with
  | ok a => exact id
  | dropped => exact id
  | panicked => exact id
  | err e =>
    intro hw
    cases e with
    | inappropriate got => exact Triple.abort (cfg := cfg) W (fun _ => id) _ _ c1 hw
    | inappropriateHs got => exact Triple.abort (cfg := cfg) W (fun _ => id) _ _ c1 hw
    | _ => exact hw

theorem processMain_spec (W : World) (m : MessagePayload) (s : HState) :
    Triple (Live cfg s) (processMain cfg W m s) (fun s => Live cfg s) (Weak cfg) := by
  unfold processMain
  refine Triple.get fun c _ => ?_
  split
  · exact Triple.bind (Q := fun _ => Live cfg s)
      (Triple.sendWarning W stable_live (fun _ h => h.weak) _ fun _ => id) fun _ => Triple.pure fun _ => id
  · exact Triple.bind (Q := fun _ v => ∃ v0, Live cfg s v0 ∧ v = v0.push (.handle m))
      (Triple.note fun v hv => ⟨v, hv, rfl⟩) fun _ => rejecting_spec W (handle_spec W s m)

theorem joinLoop_spec (W : World) (ms : List HandshakeMessage) (s : HState) :
    IoTriple (Live cfg s) (joinLoop cfg W ms s) (fun s => Live cfg s) (Weak cfg) := by
  induction ms generalizing s with
  | nil => exact IoTriple.pure fun _ => id
  | cons m ms ih =>
    unfold joinLoop
    refine IoTriple.bind (Q := fun _ => Live cfg s) (IoTriple.modify fun _ h => h) fun _ => ?_
    exact IoTriple.bind (IoTriple.lift (processMain_spec W _ s)) fun s => ih s

theorem processAlert_spec (W : World) (s : HState) (l d : UInt8) :
    Triple (Live cfg s) (processAlert W l d) (fun _ => Live cfg s) (Weak cfg) := by
  unfold processAlert
  have tail : Triple (Live cfg s) (if d = 0 then M.modify fun c => { c with closeNotify := true }
      else if l = 1 then pure () else M.fail (.alertReceived d)) (fun _ => Live cfg s) (Weak cfg) := by
    by_cases h0 : d = 0
    · rw [if_pos h0]
      exact Triple.modify fun _ h => h
    · rw [if_neg h0]
      by_cases h1 : l = 1
      · rw [if_pos h1]
        exact Triple.pure fun _ => id
      · rw [if_neg h1]
        exact Triple.fail fun _ h => h.weak
  by_cases hl : l ≠ 1 ∧ l ≠ 2
  · simp only [hl, if_true, ne_eq, not_false_eq_true, and_self]
    refine Triple.bind (Q := fun _ => Live cfg s)
      (Triple.sendFatal W stable_live (fun _ h => h.weak) _ fun _ => id) fun _ => ?_
    simpa [hl.1] using tail
  · simp only [hl, if_false]
    exact tail

theorem processHs_spec (W : World) (msg : OpaqueMessage) (s : HState) :
    IoTriple (Live cfg s) (processHs cfg W msg s) (fun s => Live cfg s) (Weak cfg) := by
  intro io hio
  unfold processHs
  rcases io.joiner.takeMessage (parseHandshake cfg.dnsOk) msg with ⟨j, r⟩
  cases r with
  | none =>
    exact IoTriple.lift (Triple.abort (cfg := cfg) (P := Live cfg s) W (fun _ h => h.weak) _ _)
      ({ io with joiner := j } : Io) hio
  | some _ =>
    exact joinLoop_spec W _ s { io with joiner := j, common := { io.common with aligned := j.buf.isEmpty } } hio

theorem processPlain_spec (W : World) (msg : OpaqueMessage) (s : HState) :
    IoTriple (Live cfg s) (processPlain cfg W msg s) (fun s => Live cfg s) (Weak cfg) := by
  unfold processPlain
  split
  · exact processHs_spec W msg s
  · split
    · exact IoTriple.fail fun _ h => h.weak
    · exact IoTriple.bind (Q := fun _ => Live cfg s) (IoTriple.lift (processAlert_spec W s _ _)) fun _ => IoTriple.pure fun _ => id
    · exact IoTriple.lift (processMain_spec W _ s)

/-! ## Records -/

theorem noCcs_upToFinished (d : Session) : Ev.handle .changeCipherSpec ∉ d.upToFinished cfg := by
  unfold Session.upToFinished Session.upToPrepared Session.upToCcs Session.upToClientKx Session.upToClientCert
    Session.upToDone Session.upToRequest Session.upToKx Session.upToStatus Session.upToCertificate Session.upToServerHello
    Session.hello
  rcases d.identity cfg with _ | ⟨_, _⟩ <;> cases d.request <;> simp

theorem hello_prefix (d : Session) : d.hello <+: d.upToServerHello := ⟨_, rfl⟩
theorem serverHello_prefix (d : Session) : d.upToServerHello <+: d.upToCertificate := ⟨_, rfl⟩
theorem certificate_prefix (d : Session) : d.upToCertificate <+: d.upToStatus := ⟨_, rfl⟩
theorem status_prefix (d : Session) : d.upToStatus <+: d.upToKx := ⟨_, rfl⟩
theorem kx_prefix (d : Session) : d.upToKx <+: d.upToRequest := ⟨_, rfl⟩
theorem request_prefix (d : Session) : d.upToRequest <+: d.upToDone := ⟨_, rfl⟩
theorem done_prefix (d : Session) : d.upToDone <+: d.upToClientCert cfg := ⟨_, (List.append_assoc _ _ _).symm⟩
theorem clientCert_prefix (d : Session) : d.upToClientCert cfg <+: d.upToClientKx cfg := ⟨_, rfl⟩
theorem clientKx_prefix (d : Session) : d.upToClientKx cfg <+: d.upToCcs cfg := ⟨_, (List.append_assoc _ _ _).symm⟩
theorem ccs_prefix (d : Session) : d.upToCcs cfg <+: d.upToPrepared cfg := ⟨_, rfl⟩
theorem prepared_prefix (d : Session) : d.upToPrepared cfg <+: d.upToFinished cfg := ⟨_, rfl⟩
theorem finished_prefix (d : Session) : d.upToFinished cfg <+: d.upToServerCcs cfg := ⟨_, rfl⟩
theorem serverCcs_prefix (d : Session) : d.upToServerCcs cfg <+: d.upToServerFinished cfg := ⟨_, rfl⟩
theorem serverFinished_prefix (d : Session) : d.upToServerFinished cfg <+: d.upToVerified cfg := ⟨_, rfl⟩
theorem verified_prefix (d : Session) : d.upToVerified cfg <+: d.script cfg := ⟨_, rfl⟩

theorem prepared_script (d : Session) : d.upToPrepared cfg <+: d.script cfg :=
  (prepared_prefix d).trans ((finished_prefix d).trans ((serverCcs_prefix d).trans ((serverFinished_prefix d).trans (verified_prefix d))))

theorem ccs_script (d : Session) : d.upToServerCcs cfg <+: d.script cfg :=
  (serverCcs_prefix d).trans ((serverFinished_prefix d).trans (verified_prefix d))

theorem request_finished (d : Session) : d.upToRequest <+: d.upToFinished cfg :=
  (request_prefix d).trans ((done_prefix d).trans ((clientCert_prefix d).trans ((clientKx_prefix d).trans ((ccs_prefix d).trans (prepared_prefix d)))))

theorem kx_finished (d : Session) : d.upToKx <+: d.upToFinished cfg := (kx_prefix d).trans (request_finished d)
theorem status_finished (d : Session) : d.upToStatus <+: d.upToFinished cfg := (status_prefix d).trans (kx_finished d)
theorem certificate_finished (d : Session) : d.upToCertificate <+: d.upToFinished cfg := (certificate_prefix d).trans (status_finished d)
theorem serverHello_finished (d : Session) : d.upToServerHello <+: d.upToFinished cfg := (serverHello_prefix d).trans (certificate_finished d)
theorem hello_finished (d : Session) : d.hello <+: d.upToFinished cfg := (hello_prefix d).trans (serverHello_finished d)

theorem Stage.noCcs {s : HState} (h : Stage cfg fl L s) (hd : fl.2.1 = false) : Ev.handle .changeCipherSpec ∉ L := by
  have key : ∀ d : Session, L <+: d.upToFinished cfg → Ev.handle .changeCipherSpec ∉ L :=
    fun d hp hm => noCcs_upToFinished d (hp.subset hm)
  cases s with
  | initial => obtain ⟨-, rfl⟩ := h; simp
  | serverHello _ => obtain ⟨-, d, -, rfl, -⟩ := h; exact key d (hello_finished d)
  | certificate _ _ _ => obtain ⟨-, d, -, -, rfl, -⟩ := h; exact key d (serverHello_finished d)
  | statusOrKx _ _ _ => obtain ⟨-, d, -, -, rfl, -⟩ := h; exact key d (certificate_finished d)
  | serverKx _ _ => obtain ⟨-, d, -, -, -, rfl, -⟩ := h; exact key d (status_finished d)
  | doneOrReq _ _ _ => obtain ⟨-, d, -, -, -, -, rfl, -⟩ := h; exact key d (kx_finished d)
  | done _ _ _ _ => obtain ⟨-, d, -, -, -, -, rfl, -⟩ := h; exact key d (request_finished d)
  | ccs _ => obtain ⟨-, d, -, rfl, -⟩ := h; exact key d List.prefix_rfl
  | finished _ => rw [h.1] at hd; cases hd
  | traffic => rw [h.1] at hd; cases hd

theorem Stage.ccs {s : HState} (h : Stage cfg fl L s) (hd : fl.2.1 = true) :
    ∃ d : Session, d.ServerOk cfg ∧ d.upToServerCcs cfg <+: L := by
  cases s with
  | finished _ => obtain ⟨-, d, hd, rfl, -⟩ := h; exact ⟨d, hd, List.prefix_rfl⟩
  | traffic => obtain ⟨-, d, hd, hp⟩ := h; exact ⟨d, hd, (ccs_script d).trans hp⟩
  | initial => rw [h.1] at hd; cases hd
  | serverHello _ => rw [h.1] at hd; cases hd
  | certificate _ _ _ => rw [h.1] at hd; cases hd
  | statusOrKx _ _ _ => rw [h.1] at hd; cases hd
  | serverKx _ _ => rw [h.1] at hd; cases hd
  | doneOrReq _ _ _ => rw [h.1] at hd; cases hd
  | done _ _ _ _ => rw [h.1] at hd; cases hd
  | ccs _ => rw [h.1] at hd; cases hd

theorem Stage.traffic {s : HState} (h : Stage cfg fl L s) (hd : fl.2.2.1 = true) : s = .traffic := by
  cases s with
  | traffic => rfl
  | finished _ => rw [h.1] at hd; cases hd
  | initial => rw [h.1] at hd; cases hd
  | serverHello _ => rw [h.1] at hd; cases hd
  | certificate _ _ _ => rw [h.1] at hd; cases hd
  | statusOrKx _ _ _ => rw [h.1] at hd; cases hd
  | serverKx _ _ => rw [h.1] at hd; cases hd
  | doneOrReq _ _ _ => rw [h.1] at hd; cases hd
  | done _ _ _ _ => rw [h.1] at hd; cases hd
  | ccs _ => rw [h.1] at hd; cases hd

/-- What is left of a function's result: a state, or the error that ends the connection. -/
def Outcome' (cfg : ClientCfg) (r : Except CErr HState) (v : View) : Prop :=
  match r with
  | .ok s => Live cfg s v
  | .error _ => Weak cfg v

theorem askLive {α : Type} {s : HState} {r : List Ev → Reply α} {ev : Reply α → Ev} {toErr : Nat → CErr}
    (hs : ∀ x, (ev x).significant = false) (ha : ∀ v, Live cfg s v → ∀ x, Allowed cfg v.log (ev x)) :
    Triple (Live cfg s) (ask r ev toErr) (fun _ => Live cfg s) (Weak cfg) :=
  Triple.ask (fun v _ hv => stable_live.push _ _ hv (hs _) (ha v hv _))
    fun v x hv _ => (stable_live.push _ _ hv (hs x) (ha v hv x)).weak

theorem frameLoop_spec (W : World) (frames : List OpaqueMessage) (s : HState) :
    IoTriple (Live cfg s) (frameLoop cfg W frames s) (Outcome' cfg) (Weak cfg) := by
  induction frames generalizing s with
  | nil => exact IoTriple.pure fun _ => id
  | cons msg rest ih =>
    unfold frameLoop
    refine IoTriple.bind (Q := fun _ => Live cfg s) (IoTriple.modify fun _ h => h) fun _ => ?_
    refine IoTriple.getAt fun io hio => ?_
    cases hd : io.common.decrypting with
    | true =>
      rw [if_pos rfl]
      refine IoTriple.bind (Q := fun _ => Live cfg s) (IoTriple.lift ?_) fun _ => ih s
      have hdec : ∀ v : View, v = io.common.view → v.flags.2.1 = true := fun v hv => by subst hv; exact hd
      exact Triple.ask (fun v _ hv => stable_live.push _ _ hv.1 rfl (hv.1.stage.ccs (hdec v hv.2)))
        fun v x hv _ => (stable_live.push v (.pushIn msg x) hv.1 rfl (hv.1.stage.ccs (hdec v hv.2))).weak
    | false =>
      rw [if_neg (by simp)]
      have hdec : ∀ v : View, v = io.common.view → v.flags.2.1 = false := fun v hv => by subst hv; exact hd
      refine IoTriple.bind (Q := fun _ => Live cfg s) (IoTriple.lift ?_) fun _ => ?_
      · refine Triple.note fun v hv => stable_live.push _ _ hv.1 rfl ?_
        have := hv.1.stage.noCcs (hdec v hv.2)
        rw [mem_significant rfl] at this
        exact this
      · refine IoTriple.bind (IoTriple.catching (processPlain_spec W msg s)) fun r => ?_
        cases r with
        | ok s => exact ih s
        | error e => exact IoTriple.pure fun _ => id

theorem drainIn_spec (W : World) (n : Nat) (s : HState) :
    IoTriple (Live cfg s) (drainIn cfg W n s) (Outcome' cfg) (Weak cfg) := by
  induction n generalizing s with
  | zero => exact fun io hio => hio.weak
  | succ n ih =>
    unfold drainIn
    refine IoTriple.bind (Q := fun _ => Live cfg s) (IoTriple.lift (askLive (fun _ => rfl) fun _ _ _ => trivial)) fun r => ?_
    cases r with
    | none => exact IoTriple.pure fun _ => id
    | some msg =>
      refine IoTriple.bind (IoTriple.catching (processPlain_spec W msg s)) fun r => ?_
      cases r with
      | ok s => exact ih s
      | error e => exact IoTriple.pure fun _ => id

theorem drainOut_spec (W : World) (n : Nat) (s : HState) :
    Triple (Live cfg s) (drainOut W n) (fun _ => Live cfg s) (Weak cfg) := by
  induction n with
  | zero => exact fun c hc => hc.weak
  | succ n ih =>
    unfold drainOut
    refine Triple.bind (Q := fun _ => Live cfg s) (askLive (fun _ => rfl) fun _ _ _ => trivial) fun r => ?_
    cases r with
    | none => exact Triple.pure fun _ => id
    | some msg => exact Triple.bind (Q := fun _ => Live cfg s) (Triple.modify fun _ h => h) fun _ => ih

theorem flushLive (W : World) (s : HState) :
    Triple (Live cfg s) (flushPlaintext W) (fun _ => Live cfg s) (Weak cfg) := by
  intro c hc
  cases hs : c.maySend with
  | false =>
    have : flushPlaintext W c = (c, .ok ()) := by
      show (if c.maySend then flushLoop W (c.sendable.chunks.length + 1) else pure () : M Common Unit) c = _
      rw [hs]
      rfl
    rw [this]
    exact hc
  | true =>
    obtain rfl := hc.stage.traffic (hs : c.view.flags.2.2.1 = true)
    have hst := hc.stage
    obtain ⟨hf, d, hd, hp⟩ := hst
    refine ((flushPlaintext_spec (cfg := cfg) (fl := (true, true, true, true)) W rfl).imp (fun _ => id) fun _ v hv => ?_) c
      ⟨hc.weak, hf, d, hd, hp⟩
    exact ⟨hv.weak, by rw [hv.flags]; exact ⟨rfl, hv.auth⟩⟩

theorem processBody_spec (W : World) (n : Nat) (s : HState) :
    IoTriple (Live cfg s) (processBody cfg W n s) (Outcome' cfg) (Weak cfg) := by
  unfold processBody
  refine IoTriple.get fun io _ => ?_
  split
  · exact IoTriple.fail fun _ h => h.weak
  · refine IoTriple.bind (IoTriple.lift (flushLive W s)) fun _ => ?_
    refine IoTriple.bind (frameLoop_spec W _ s) fun r => ?_
    cases r with
    | error e => exact IoTriple.pure fun _ => id
    | ok s =>
      refine IoTriple.bind (Q := fun _ => Live cfg s) (IoTriple.lift (askLive (fun _ => rfl) fun _ _ _ => trivial)) fun _ => ?_
      refine IoTriple.bind (drainIn_spec W n s) fun r => ?_
      cases r with
      | error e => exact IoTriple.pure fun _ => id
      | ok s =>
        exact IoTriple.bind (IoTriple.lift (drainOut_spec W n s)) fun _ => IoTriple.pure fun _ => id

/-! ## Calls -/

/-- The invariant of a connection. -/
def Inv (cfg : ClientCfg) (c : Conn) : Prop := Outcome' cfg c.state c.io.common.view

theorem Inv.weak {c : Conn} (h : Inv cfg c) : Weak cfg c.io.common.view := by
  unfold Inv Outcome' at h
  cases hs : c.state with
  | ok s => rw [hs] at h; exact h.weak
  | error e => rw [hs] at h; exact h

/-- A predicate that holds for states and for errors. -/
theorem stable_outcome (r : Except CErr HState) : Stable cfg (Outcome' cfg r) := by
  cases r with
  | ok s => exact stable_live
  | error e => exact stable_weak cfg

theorem new_inv {c : Conn} (h : Conn.new cfg = .ok c) : Inv cfg c := by
  unfold Conn.new at h
  split at h
  · cases h
  · rename_i common hc
    cases h
    unfold Common.new at hc
    split at hc
    · cases hc
    · cases hc
      exact ⟨⟨Good.nil cfg, (fun h => by cases h), (fun _ _ => by simp [Common.view]), fun h => (by cases h)⟩, rfl, rfl⟩

theorem step_inv (W : World) (c : Conn) (k : Call) (h : Inv cfg c) : Inv cfg (c.step cfg W k).1 := by
  cases k with
  | start =>
    show Inv cfg (callStart cfg W c).1
    unfold callStart
    cases hs : c.state with
    | error e => exact h
    | ok s =>
      cases s with
      | initial =>
        have hl : Live cfg .initial c.io.common.view := by
          have := h
          unfold Inv Outcome' at this
          rw [hs] at this
          exact this
        have := start_spec (cfg := cfg) W c.io.common hl
        revert this
        simp only
        rcases startHandshake cfg W c.io.common with ⟨c1, r⟩
        cases r <;> exact id
      | _ => exact h.weak
  | process n =>
    show Inv cfg (callProcess cfg W n c).1
    unfold callProcess
    cases hs : c.state with
    | error e => exact h
    | ok s =>
      have hl : Live cfg s c.io.common.view := by
        have := h
        unfold Inv Outcome' at this
        rw [hs] at this
        exact this
      have := processBody_spec (cfg := cfg) W n s c.io hl
      revert this
      simp only
      rcases processBody cfg W n s c.io with ⟨c1, r⟩
      cases r with
      | ok r => cases r <;> exact id
      | _ => exact id
  | readTls avail => exact h
  | writePlaintext buf =>
    show Inv cfg (callWrite buf c).1
    unfold callWrite
    split <;> exact h
  | readPlaintext room => exact h
  | writeTls accept => exact h
  | sendCloseNotify =>
    have := Triple.sendWarning (cfg := cfg) (P := Outcome' cfg c.state) (E := Outcome' cfg c.state)
      (Q := fun _ => Outcome' cfg c.state) W (stable_outcome c.state) (fun _ => id) 0 (fun _ => id) c.io.common h
    revert this
    show _ → Outcome' cfg c.state (sendWarning W 0 c.io.common).1.view
    rcases sendWarning W 0 c.io.common with ⟨c1, r⟩
    cases r <;> exact id
  | serverClosed =>
    have := Triple.ask (r := W.close) (ev := Ev.close) (toErr := .backend) (P := Outcome' cfg c.state)
      (E := Outcome' cfg c.state)
      (Q := fun _ => Outcome' cfg c.state) (fun v _ hv => (stable_outcome c.state).push _ _ hv rfl trivial)
      (fun v x hv _ => (stable_outcome c.state).push _ _ hv rfl trivial) c.io.common h
    revert this
    show _ → Outcome' cfg c.state (ask W.close .close .backend c.io.common).1.view
    rcases ask W.close .close .backend c.io.common with ⟨c1, r⟩
    cases r <;> exact id
  | enableDecryption b => exact (stable_outcome c.state).push _ (.enable b) h rfl trivial

theorem run_inv (W : World) (c0 : Conn) (h : Conn.new cfg = .ok c0) (calls : List Call) :
    Inv cfg (c0.run cfg W calls).1 :=
  Sdk.runCalls_inv (P := fun c _ => Inv cfg c) (new_inv h) (fun s _ k hs => step_inv W s k hs) calls

end Tlsn.Client
