import Verif.Drive.Model

/-! # What never goes back on a connection -/

namespace Tlsn.Client

/-- The setting in an event. -/
def Ev.enables : Ev → Option Bool
  | .enable b => some b
  | _ => none

/-- Nothing is taken back, except that data is read. -/
structure Le (c c' : Common) : Prop where
  maySend : c.maySend = true → c'.maySend = true
  mayReceive : c.mayReceive = true → c'.mayReceive = true
  closeNotify : c.closeNotify = true → c'.closeNotify = true
  log : c.log <+: c'.log
  enables : c'.log.filterMap Ev.enables = c.log.filterMap Ev.enables
  received : c.received.chunks <+: c'.received.chunks

theorem Le.refl (c : Common) : Le c c := ⟨id, id, id, List.prefix_rfl, rfl, List.prefix_rfl⟩

theorem Le.trans {a b c : Common} (h1 : Le a b) (h2 : Le b c) : Le a c :=
  ⟨h2.1 ∘ h1.1, h2.2 ∘ h1.2, h2.3 ∘ h1.3, h1.4.trans h2.4, h2.5.trans h1.5, h1.6.trans h2.6⟩

def Up {α : Type} (f : M Common α) : Prop := ∀ c, Le c (f c).1

variable {α β : Type} {cfg : ClientCfg}

theorem Up.bind {f : M Common α} {g : α → M Common β} (hf : Up f) (hg : ∀ a, Up (g a)) : Up (f >>= g) := by
  intro c
  have h1 := hf c
  show Le c (M.bind f g c).1
  unfold M.bind
  revert h1
  rcases f c with ⟨c1, r⟩
  cases r with
  | ok a => intro h1; exact h1.trans (hg a c1)
  | err e => exact id
  | dropped => exact id
  | panicked => exact id

theorem Up.get {g : Common → M Common β} (hg : ∀ a, Up (g a)) : Up (M.get >>= g) := fun c => hg c c
theorem Up.pure {a : α} : Up (Pure.pure a : M Common α) := fun c => Le.refl c
theorem Up.fail {e : CErr} : Up (M.fail e : M Common α) := fun c => Le.refl c
theorem Up.panic : Up (M.panic : M Common α) := fun c => Le.refl c

theorem le_log (c : Common) (e : Ev) (he : e.enables = none) : Le c { c with log := c.log ++ [e] } :=
  ⟨id, id, id, List.prefix_append _ _, by simp [he], List.prefix_rfl⟩

theorem Up.note {e : Ev} (he : e.enables = none) : Up (Tlsn.Client.note e) := fun c => le_log c e he

theorem Up.ask {r : List Ev → Reply α} {ev : Reply α → Ev} {toErr : Nat → CErr} (he : ∀ x, (ev x).enables = none) :
    Up (Tlsn.Client.ask r ev toErr) := by
  intro c
  unfold Tlsn.Client.ask
  simp only
  cases r c.log <;> exact le_log c _ (he _)

theorem Up.modify {f : Common → Common} (h : ∀ c, Le c (f c)) : Up (M.modify f) := h

/-- Changes of other fields, and of flags towards `true`. -/
macro "up_mod" : tactic => `(tactic| exact Up.modify fun c => ⟨fun _ => by first | rfl | assumption, fun _ => by first | rfl | assumption,
  fun _ => by first | rfl | assumption, List.prefix_rfl, rfl, List.prefix_rfl⟩)

theorem up_queue (m : OpaqueMessage) : Up (queueTls m) := by unfold queueTls; up_mod

theorem up_pushAll (W : World) (l : List OpaqueMessage) : Up (pushAll W l) := by
  induction l with
  | nil => exact Up.pure
  | cons m ms ih => exact Up.bind (Up.ask fun _ => rfl) fun _ => ih

theorem up_queueAll (l : List OpaqueMessage) : Up (queueAll l) := by
  induction l with
  | nil => exact Up.pure
  | cons m ms ih => exact Up.bind (up_queue m) fun _ => ih

theorem up_sendMsg (W : World) (v : ProtocolVersion) (m : MessagePayload) (b : Bool) : Up (sendMsg W v m b) := by
  refine Up.get fun _ => ?_
  cases b
  · exact Up.bind (Up.note rfl) fun _ => up_queueAll _
  · exact Up.bind (Up.note rfl) fun _ => up_pushAll W _

theorem up_fatal (W : World) (d : UInt8) : Up (sendFatal W d) := by
  refine Up.get fun _ => Up.bind (up_sendMsg _ _ _ _) fun _ => ?_
  up_mod

theorem up_warning (W : World) (d : UInt8) : Up (sendWarning W d) := Up.get fun _ => up_sendMsg _ _ _ _

theorem up_abort (W : World) (d : UInt8) (e : CErr) : Up (abort W d e : M Common α) := Up.bind (up_fatal W d) fun _ => Up.fail

theorem up_illegal (W : World) (w : String) : Up (illegalParam W w : M Common α) := up_abort W _ _

theorem up_aligned (W : World) : Up (checkAligned W) := by
  refine Up.get fun _ => ?_
  split
  · exact Up.pure
  · exact up_abort W _ _

theorem up_appData (W : World) (p : Bytes) : Up (sendAppData W p) := Up.get fun _ => up_pushAll W _

theorem up_flushLoop (W : World) (n : Nat) : Up (flushLoop W n) := by
  induction n with
  | zero => exact Up.pure
  | succ n ih =>
    refine Up.get fun _ => ?_
    split
    · exact Up.pure
    · refine Up.bind ?_ fun _ => Up.bind (up_appData W _) fun _ => ih
      up_mod

theorem up_flush (W : World) : Up (flushPlaintext W) := by
  refine Up.get fun _ => ?_
  split
  · exact up_flushLoop W _
  · exact Up.pure

theorem up_startTraffic (W : World) : Up (startTraffic W) := by
  refine Up.bind ?_ fun _ => Up.bind (Up.ask fun _ => rfl) fun _ => Up.bind ?_ fun _ => up_flush W
  · up_mod
  · up_mod

theorem up_alert (W : World) (l d : UInt8) : Up (processAlert W l d) := by
  unfold processAlert
  have tail : Up (if d = 0 then M.modify fun c => { c with closeNotify := true }
      else if l = 1 then pure () else M.fail (.alertReceived d)) := by
    split
    · up_mod
    · split
      · exact Up.pure
      · exact Up.fail
  by_cases hl : l ≠ 1 ∧ l ≠ 2
  · simp only [hl, if_true, ne_eq, not_false_eq_true, and_self]
    refine Up.bind (up_fatal W _) fun _ => ?_
    simpa [hl.1] using tail
  · simp only [hl, if_false]
    exact tail

theorem up_take (p : Bytes) : Up (takePlaintext p) := by
  refine Up.bind (Up.note rfl) fun _ => Up.modify fun c => ⟨id, id, id, List.prefix_rfl, rfl, ?_⟩
  unfold VecBuf.append
  split
  · exact List.prefix_rfl
  · exact List.prefix_append _ _

theorem up_same {f : Common → Common} (h : ∀ c, (f c).maySend = c.maySend ∧ (f c).mayReceive = c.mayReceive ∧
    (f c).closeNotify = c.closeNotify ∧ (f c).log = c.log ∧ (f c).received = c.received) : Up (M.modify f) := by
  intro c
  obtain ⟨h1, h2, h3, h4, h5⟩ := h c
  show Le c (f c)
  exact ⟨fun h => h1.trans h, fun h => h2.trans h, fun h => h3.trans h, h4 ▸ List.prefix_rfl, by rw [h4], h5 ▸ List.prefix_rfl⟩

theorem up_start (W : World) : Up (startHandshake cfg W) :=
  Up.bind (Up.ask fun _ => rfl) fun _ => Up.bind (Up.ask fun _ => rfl) fun _ =>
  Up.bind (up_sendMsg W _ _ _) fun _ => Up.pure

theorem up_alpn (W : World) (p : Option Bytes) : Up (processAlpn cfg W p) := by
  refine Up.bind (up_same fun _ => ⟨rfl, rfl, rfl, rfl, rfl⟩) fun _ => ?_
  split
  · split
    · exact Up.pure
    · exact up_illegal W _
  · exact Up.pure

theorem up_completeHello (x : Ctx) (h : ServerHello) : Up (completeServerHello x h) := by
  unfold completeServerHello
  simp only
  split
  · split
    · exact Up.fail
    · exact Up.pure
  · exact Up.pure

theorem up_serverHello (W : World) (s : HelloCtx) (m : MessagePayload) :
    Up (handleServerHello cfg W s m) := by
  unfold handleServerHello
  split
  · split
    · exact up_abort W _ _
    · split
      · exact up_illegal W _
      · split
        · exact up_abort W _ _
        · split
          · exact up_abort W _ _
          · refine Up.bind (up_same fun _ => ⟨rfl, rfl, rfl, rfl, rfl⟩) fun _ =>
              Up.bind (up_alpn W _) fun _ => ?_
            split
            · exact up_abort W _ _
            · split
              · exact up_abort W _ _
              · exact Up.bind (up_same fun _ => ⟨rfl, rfl, rfl, rfl, rfl⟩) fun _ => up_completeHello _ _
  · exact Up.fail

theorem up_certificate (x : Ctx) (b : Bool) (scts : Option (List Bytes)) (m : MessagePayload) :
    Up (handleCertificate x b scts m) := by
  unfold handleCertificate
  split
  · simp only
    split
    · exact Up.pure
    · exact Up.pure
  · exact Up.fail

theorem up_serverKx (W : World) (x : Ctx) (cert : CertDetails) (m : MessagePayload) :
    Up (handleServerKx W x cert m) := by
  unfold handleServerKx
  split
  · split
    · exact up_abort W _ _
    · exact Up.pure
  · exact Up.fail

theorem up_statusOrKx (W : World) (x : Ctx) (scts : Option (List Bytes)) (chain : List Bytes)
    (m : MessagePayload) : Up (handleStatusOrKx W x scts chain m) := by
  unfold handleStatusOrKx
  split
  · exact up_serverKx W _ _ _
  · exact Up.pure
  · exact Up.fail

theorem up_emit (W : World) (t : HandshakeHash) (m : MessagePayload) : Up (emit W t m) :=
  Up.bind (up_sendMsg W _ _ _) fun _ => Up.pure

theorem up_verifyServer (W : World) (x : Ctx) (cert : CertDetails) (kx : KxDetails) :
    Up (verifyServer cfg W x cert kx) := by
  unfold verifyServer
  split
  · exact Up.fail
  · refine Up.bind (Up.get fun _ => Up.bind (Up.note rfl) fun _ => Up.pure) fun _ => ?_
    split
    · exact up_abort W _ _
    · split
      · exact Up.fail
      · split
        · exact up_abort W _ _
        · exact Up.pure

theorem up_emitCertificate (W : World) (auth : Option ClientAuth) (t : HandshakeHash) : Up (emitCertificate W auth t) := by
  unfold emitCertificate
  split
  · exact Up.pure
  · exact up_emit W _ _
  · exact up_emit W _ _

theorem up_emitCertVerify (W : World) (auth : Option ClientAuth) (t : HandshakeHash) : Up (emitCertVerify W auth t) := by
  unfold emitCertVerify
  split
  · split
    · exact Up.fail
    · exact Up.bind (Up.ask fun _ => rfl) fun _ => up_emit W _ _
  · exact Up.pure

theorem up_serverDone (W : World) (x : Ctx) (cert : CertDetails) (kx : KxDetails) (auth : Option ClientAuth)
    (m : MessagePayload) : Up (handleServerDone cfg W x cert kx auth m) := by
  unfold handleServerDone
  split
  · refine Up.bind (up_aligned W) fun _ => Up.bind (up_verifyServer W _ _ _) fun _ =>
      Up.bind (up_emitCertificate W _ _) fun _ => ?_
    split
    · exact up_abort W _ _
    · refine Up.bind (Up.ask fun _ => rfl) fun _ => ?_
      split
      · exact Up.fail
      · exact Up.bind (up_emit W _ _) fun _ => Up.bind (up_emitCertVerify W _ _) fun _ =>
          Up.bind (up_sendMsg W _ _ _) fun _ => Up.bind (Up.ask fun _ => rfl) fun _ =>
          Up.bind (up_same fun _ => ⟨rfl, rfl, rfl, rfl, rfl⟩) fun _ =>
          Up.bind (Up.ask fun _ => rfl) fun _ =>
          Up.bind (up_sendMsg W _ _ _) fun _ => Up.pure
  · exact Up.fail

theorem up_doneOrReq (W : World) (x : Ctx) (cert : CertDetails) (kx : KxDetails) (m : MessagePayload) :
    Up (handleDoneOrReq cfg W x cert kx m) := by
  unfold handleDoneOrReq
  split
  · exact Up.pure
  · exact up_serverDone W _ _ _ _ _

theorem up_ccs (W : World) (t : HandshakeHash) (m : MessagePayload) : Up (handleCcs W t m) := by
  unfold handleCcs
  split
  · exact Up.bind (up_aligned W) fun _ => Up.bind (up_same fun _ => ⟨rfl, rfl, rfl, rfl, rfl⟩) fun _ => Up.pure
  · exact Up.fail

theorem up_finished (W : World) (t : HandshakeHash) (m : MessagePayload) : Up (handleFinished W t m) := by
  unfold handleFinished
  split
  · refine Up.bind (up_aligned W) fun _ => Up.bind (Up.ask fun _ => rfl) fun _ => ?_
    split
    · exact Up.bind (up_startTraffic W) fun _ => Up.pure
    · exact up_abort W _ _
  · exact Up.fail

theorem up_traffic (m : MessagePayload) : Up (handleTraffic m) := by
  unfold handleTraffic
  split
  · exact Up.bind (up_take _) fun _ => Up.pure
  · exact Up.fail

theorem up_handle (W : World) (s : HState) (m : MessagePayload) : Up (handle cfg W s m) := by
  cases s with
  | initial => exact Up.panic
  | serverHello h => exact up_serverHello W h m
  | certificate x b scts => exact up_certificate x b scts m
  | statusOrKx x scts chain => exact up_statusOrKx W x scts chain m
  | serverKx x cert => exact up_serverKx W x cert m
  | doneOrReq x cert kx => exact up_doneOrReq W x cert kx m
  | done x cert kx auth => exact up_serverDone W x cert kx auth m
  | ccs t => exact up_ccs W t m
  | finished t => exact up_finished W t m
  | traffic => exact up_traffic m

theorem up_rejecting (W : World) {f : M Common HState} (h : Up f) : Up (rejecting W f) := by
  intro c
  have := h c
  unfold rejecting
  revert this
  rcases f c with ⟨c1, r⟩
  cases r with
  | ok a => exact id
  | dropped => exact id
  | panicked => exact id
  | err e =>
    intro hw
    cases e with
    | inappropriate got => exact hw.trans (up_abort W _ _ c1)
    | inappropriateHs got => exact hw.trans (up_abort W _ _ c1)
    | _ => exact hw

theorem up_processMain (W : World) (m : MessagePayload) (s : HState) : Up (processMain cfg W m s) := by
  refine Up.get fun _ => ?_
  split
  · exact Up.bind (up_warning W _) fun _ => Up.pure
  · exact Up.bind (Up.note rfl) fun _ => up_rejecting W (up_handle W s m)

/-! ## The connection -/

/-- Besides, a function that ends well leaves `frames` in the deframer, and only frames are taken from it. -/
def IoUp (f : M Io α) : Prop := ∀ io, Le io.common (f io).1.common ∧ (f io).1.deframer = io.deframer

theorem IoUp.bind {f : M Io α} {g : α → M Io β} (hf : IoUp f) (hg : ∀ a, IoUp (g a)) : IoUp (f >>= g) := by
  intro c
  have h1 := hf c
  show Le c.common (M.bind f g c).1.common ∧ _
  have hb : (f >>= g) c = M.bind f g c := rfl
  rw [hb]
  unfold M.bind
  revert h1
  rcases f c with ⟨c1, r⟩
  cases r with
  | ok a => intro h1; exact ⟨h1.1.trans (hg a c1).1, (hg a c1).2.trans h1.2⟩
  | err e => exact id
  | dropped => exact id
  | panicked => exact id

theorem IoUp.pure {a : α} : IoUp (Pure.pure a : M Io α) := fun _ => ⟨Le.refl _, rfl⟩

theorem IoUp.lift {f : M Common α} (h : Up f) : IoUp (Tlsn.Client.lift f) := fun io => ⟨h io.common, rfl⟩

theorem ioUp_joinLoop (W : World) (ms : List HandshakeMessage) (s : HState) : IoUp (joinLoop cfg W ms s) := by
  induction ms generalizing s with
  | nil => exact IoUp.pure
  | cons m ms ih =>
    refine IoUp.bind (fun _ => ⟨Le.refl _, rfl⟩) fun _ => IoUp.bind (IoUp.lift (up_processMain W _ _)) fun s => ih s

theorem le_aligned (c : Common) (b : Bool) : Le c { c with aligned := b } := ⟨id, id, id, List.prefix_rfl, rfl, List.prefix_rfl⟩

theorem ioUp_processHs (W : World) (m : OpaqueMessage) (s : HState) : IoUp (processHs cfg W m s) := by
  intro io
  unfold processHs
  rcases io.joiner.takeMessage (parseHandshake cfg.dnsOk) m with ⟨j, _ | x⟩
  · exact IoUp.lift (up_abort W _ _) { io with joiner := j }
  · have := ioUp_joinLoop (cfg := cfg) W j.frames s { io with joiner := j, common := { io.common with aligned := j.buf.isEmpty } }
    exact ⟨(le_aligned io.common _).trans this.1, this.2⟩

theorem ioUp_processPlain (W : World) (m : OpaqueMessage) (s : HState) : IoUp (processPlain cfg W m s) := by
  unfold processPlain
  split
  · exact ioUp_processHs W m s
  · split
    · exact fun _ => ⟨Le.refl _, rfl⟩
    · exact IoUp.bind (IoUp.lift (up_alert W _ _)) fun _ => IoUp.pure
    · exact IoUp.lift (up_processMain W _ _)

theorem IoUp.catching {f : M Io α} (h : IoUp f) : IoUp (Tlsn.Client.catching f) := by
  intro io
  have := h io
  unfold Tlsn.Client.catching
  revert this
  rcases f io with ⟨io', r⟩
  cases r <;> exact id

theorem ioUp_drainIn (W : World) (n : Nat) (s : HState) : IoUp (drainIn cfg W n s) := by
  induction n generalizing s with
  | zero => exact fun _ => ⟨Le.refl _, rfl⟩
  | succ n ih =>
    refine IoUp.bind (IoUp.lift (Up.ask fun _ => rfl)) fun a => ?_
    cases a with
    | none => exact IoUp.pure
    | some msg =>
      refine IoUp.bind (IoUp.catching (ioUp_processPlain W msg s)) fun b => ?_
      cases b with
      | error e => exact IoUp.pure
      | ok s => exact ih s

theorem up_drainOut (W : World) (n : Nat) : Up (drainOut W n) := by
  induction n with
  | zero => exact fun c => Le.refl c
  | succ n ih =>
    refine Up.bind (Up.ask fun _ => rfl) fun a => ?_
    cases a with
    | none => exact Up.pure
    | some msg => exact Up.bind (up_queue msg) fun _ => ih

/-- `f` may take frames out of the deframer. -/
def IoLe (f : M Io α) : Prop := ∀ io, Le io.common (f io).1.common

theorem IoLe.bind {f : M Io α} {g : α → M Io β} (hf : IoLe f) (hg : ∀ a, IoLe (g a)) : IoLe (f >>= g) := by
  intro c
  have h1 := hf c
  have hb : (f >>= g) c = M.bind f g c := rfl
  rw [hb]
  unfold M.bind
  revert h1
  rcases f c with ⟨c1, r⟩
  cases r with
  | ok a => intro h1; exact h1.trans (hg a c1)
  | err e => exact id
  | dropped => exact id
  | panicked => exact id

theorem IoUp.le {f : M Io α} (h : IoUp f) : IoLe f := fun io => (h io).1

theorem ioLe_frameLoop (W : World) (l : List OpaqueMessage) (s : HState) : IoLe (frameLoop cfg W l s) := by
  induction l generalizing s with
  | nil => exact IoUp.pure.le
  | cons msg rest ih =>
    refine IoLe.bind (fun _ => Le.refl _) fun _ => ?_
    intro io
    show Le io.common ((if io.common.decrypting then _ else _ : M Io _) io).1.common
    by_cases hd : io.common.decrypting = true
    · rw [if_pos hd]
      exact IoLe.bind (IoUp.lift (Up.ask fun _ => rfl)).le (fun _ => ih s) io
    · rw [if_neg hd]
      refine IoLe.bind (IoUp.lift (Up.note rfl)).le (fun _ => IoLe.bind (IoUp.catching (ioUp_processPlain W msg s)).le fun b => ?_) io
      cases b with
      | error e => exact IoUp.pure.le
      | ok s => exact ih s

theorem ioLe_processBody (W : World) (n : Nat) (s : HState) : IoLe (processBody cfg W n s) := by
  intro io
  show Le io.common ((if io.deframer.desynced then _ else _ : M Io _) io).1.common
  by_cases hd : io.deframer.desynced = true
  · rw [if_pos hd]
    exact Le.refl _
  · rw [if_neg hd]
    refine IoLe.bind (IoUp.lift (up_flush W)).le (fun _ => IoLe.bind (ioLe_frameLoop W _ s) fun a => ?_) io
    cases a with
    | error e => exact IoUp.pure.le
    | ok s =>
      refine IoLe.bind (IoUp.lift (Up.ask fun _ => rfl)).le fun _ => IoLe.bind (ioUp_drainIn W n s).le fun b => ?_
      cases b with
      | error e => exact IoUp.pure.le
      | ok s => exact IoLe.bind (IoUp.lift (up_drainOut W n)).le fun _ => IoUp.pure.le

/-- Calls which take nothing from the caller's data and do not change the setting. -/
def Call.inner : Call → Bool
  | .start | .process _ | .sendCloseNotify | .serverClosed => true
  | _ => false

theorem le_step (W : World) (c : Conn) (k : Call) (hk : k.inner = true) : Le c.io.common (c.step cfg W k).1.io.common := by
  cases k with
  | start =>
    show Le _ (callStart cfg W c).1.io.common
    unfold callStart
    cases hs : c.state with
    | error e => exact Le.refl _
    | ok s =>
      cases s with
      | initial =>
        have := up_start (cfg := cfg) W c.io.common
        simp only
        revert this
        rcases startHandshake cfg W c.io.common with ⟨c1, r⟩
        cases r <;> exact id
      | _ => exact Le.refl _
  | process n =>
    show Le _ (callProcess cfg W n c).1.io.common
    unfold callProcess
    cases hs : c.state with
    | error e => exact Le.refl _
    | ok s =>
      have := ioLe_processBody (cfg := cfg) W n s c.io
      simp only
      revert this
      rcases processBody cfg W n s c.io with ⟨io, r⟩
      cases r with
      | ok a => cases a <;> exact id
      | err e => exact id
      | dropped => exact id
      | panicked => exact id
  | sendCloseNotify => exact up_warning W 0 c.io.common
  | serverClosed => exact Up.ask (r := W.close) (ev := .close) (toErr := .backend) (fun _ => rfl) c.io.common
  | _ => cases hk

/-! ## No record is left over -/

theorem frameLoop_ok (W : World) (l : List OpaqueMessage) (s s' : HState) (io io' : Io) (hl : io.deframer.frames = l)
    (h : frameLoop cfg W l s io = (io', .ok (.ok s'))) :
    io'.deframer.frames = [] ∧ io'.deframer.desynced = io.deframer.desynced := by
  induction l generalizing s io with
  | nil => cases h; exact ⟨hl, rfl⟩
  | cons msg rest ih =>
    have hstep : frameLoop cfg W (msg :: rest) s io = (if io.common.decrypting then (do
        Tlsn.Client.lift (ask (W.pushIn · msg) (.pushIn msg))
        frameLoop cfg W rest s) else (do
        Tlsn.Client.lift (note (.plain msg))
        match ← catching (processPlain cfg W msg s) with
        | .error e => pure (.error e)
        | .ok s => frameLoop cfg W rest s) : M Io _) { io with deframer := { io.deframer with frames := rest } } := rfl
    rw [hstep] at h
    by_cases hd : io.common.decrypting = true
    · rw [if_pos hd] at h
      change M.bind _ _ _ = _ at h
      unfold M.bind at h
      have hu := IoUp.lift (f := ask (W.pushIn · msg) (.pushIn msg)) (Up.ask fun _ => rfl) { io with deframer := { io.deframer with frames := rest } }
      revert h hu
      rcases Tlsn.Client.lift (ask (W.pushIn · msg) (.pushIn msg)) { io with deframer := { io.deframer with frames := rest } } with ⟨io1, r⟩
      cases r with
      | ok a => intro h hu; have := ih s io1 (by rw [hu.2]) h; rw [hu.2] at this; exact this
      | _ => intro h; cases h
    · rw [if_neg hd] at h
      change M.bind _ _ _ = _ at h
      unfold M.bind at h
      have hu := IoUp.lift (f := note (.plain msg)) (Up.note rfl) { io with deframer := { io.deframer with frames := rest } }
      revert h hu
      rcases Tlsn.Client.lift (note (.plain msg)) { io with deframer := { io.deframer with frames := rest } } with ⟨io1, r⟩
      cases r with
      | ok a =>
        intro h hu
        change M.bind _ _ _ = _ at h
        unfold M.bind at h
        have hu2 := IoUp.catching (ioUp_processPlain (cfg := cfg) W msg s) io1
        revert h hu2
        rcases catching (processPlain cfg W msg s) io1 with ⟨io2, r⟩
        cases r with
        | ok b =>
          cases b with
          | error e => intro h; cases h
          | ok s2 =>
            intro h hu2
            have := ih s2 io2 (by rw [hu2.2, hu.2]) h
            rw [hu2.2, hu.2] at this
            exact this
        | _ => intro h; cases h
      | _ => intro h; cases h

theorem bind_ok {σ : Type} {f : M σ α} {g : α → M σ β} {s s' : σ} {b : β} (h : (f >>= g) s = (s', .ok b)) :
    ∃ s1 a, f s = (s1, .ok a) ∧ g a s1 = (s', .ok b) := by
  change M.bind f g s = _ at h
  unfold M.bind at h
  revert h
  rcases hf : f s with ⟨s1, r⟩
  cases r with
  | ok a => exact fun h => ⟨s1, a, rfl, h⟩
  | err e => intro h; cases h
  | dropped => intro h; cases h
  | panicked => intro h; cases h

theorem IoUp.eq {f : M Io α} (h : IoUp f) {io io' : Io} {r : Res α} (hf : f io = (io', r)) : io'.deframer = io.deframer := by
  have := (h io).2
  rw [hf] at this
  exact this

/-- No record is waiting, and nothing has failed. -/
structure Tidy (c : Conn) : Prop where
  frames : c.io.deframer.frames = []
  synced : c.io.deframer.desynced = false
  state : ∃ s, c.state = .ok s

/-- After `process_new_packets` has succeeded, no record is waiting. -/
theorem process_frames (W : World) (c : Conn) (n w r : Nat) (h : (c.step cfg W (.process n)).2 = .io w r) :
    Tidy (c.step cfg W (.process n)).1 := by
  change (callProcess cfg W n c).2 = _ at h
  show Tidy (callProcess cfg W n c).1
  unfold callProcess at h ⊢
  cases hs : c.state with
  | error e => rw [hs] at h; cases h
  | ok s =>
    rw [hs] at h
    simp only at h ⊢
    rcases hp : processBody cfg W n s c.io with ⟨io, rr⟩
    rw [hp] at h
    cases rr with
    | ok a =>
      cases a with
      | error e => cases h
      | ok s' =>
        simp only
        have hstep : processBody cfg W n s c.io = (if c.io.deframer.desynced then M.fail .corruptMessage
          else do
            lift (flushPlaintext W)
            match ← frameLoop cfg W c.io.deframer.frames s with
            | .error e => pure (.error e)
            | .ok s => do
              lift (ask W.flush .flush)
              match ← drainIn cfg W n s with
              | .error e => pure (.error e)
              | .ok s => do
                lift (drainOut W n)
                pure (.ok s) : M Io _) c.io := rfl
        rw [hstep] at hp
        by_cases hd : c.io.deframer.desynced = true
        · rw [if_pos hd] at hp; cases hp
        · rw [if_neg hd] at hp
          obtain ⟨io1, _, h1, hp⟩ := bind_ok hp
          have e1 := (IoUp.lift (up_flush W)).eq h1
          obtain ⟨io2, b, h2, hp⟩ := bind_ok hp
          cases b with
          | error e => cases hp
          | ok s2 =>
            have e2 := frameLoop_ok W _ s s2 io1 io2 (by rw [e1]) h2
            obtain ⟨io3, _, h3, hp⟩ := bind_ok hp
            have e3 := (IoUp.lift (f := ask W.flush .flush) (Up.ask fun _ => rfl)).eq h3
            obtain ⟨io4, b, h4, hp⟩ := bind_ok hp
            have e4 := (ioUp_drainIn W n s2).eq h4
            cases b with
            | error e => cases hp
            | ok s4 =>
              obtain ⟨io5, _, h5, hp⟩ := bind_ok hp
              have e5 := (IoUp.lift (up_drainOut W n)).eq h5
              cases hp
              refine ⟨?_, ?_, _, rfl⟩
              · rw [e5, e4, e3, e2.1]
              · rw [e5, e4, e3, e2.2, e1]
                simpa using hd
    | err e => cases h
    | dropped => cases h
    | panicked => cases h

end Tlsn.Client
