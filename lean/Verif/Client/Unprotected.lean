import Verif.Client.ConnProps
import Verif.Client.Faithful
import Verif.Client.Props
import Verif.Client.Demo

/-! # Application data in records that are not protected is never delivered -/

namespace Tlsn.Client

variable {cfg : ClientCfg}

/-- The event is not an unprotected record with application data. -/
def NotData (_ : World) (_ : List Ev) (e : Ev) : Prop := ∀ m, e = .plain m → m.typ ≠ .applicationData

instance (W : World) : Fits W (NotData W) := ⟨fun _ _ _ h m hm => absurd hm (h m)⟩

/-- No unprotected record with application data was taken. -/
def Clean (log : List Ev) : Prop := ∀ m, Ev.plain m ∈ log → m.typ ≠ .applicationData

/-- An unprotected record with application data was taken, and the server has not changed to protected records. -/
def Dead (log : List Ev) : Prop := Ev.handle .changeCipherSpec ∉ log ∧ ∃ m, Ev.plain m ∈ log ∧ m.typ = .applicationData

/-- What holds of a connection that has failed. -/
def Shut (cfg : ClientCfg) (v : View) : Prop := Weak cfg v ∧ (Clean v.log ∨ Dead v.log)

/-- What holds of one that has not. -/
def Sound (cfg : ClientCfg) (s : HState) (v : View) : Prop := Live cfg s v ∧ Clean v.log

theorem Sound.shut {s : HState} {v : View} (h : Sound cfg s v) : Shut cfg v := ⟨h.1.weak, .inl h.2⟩

theorem Clean.push {log : List Ev} (h : Clean log) {e : Ev} (hn : ∀ m, e = .plain m → m.typ ≠ .applicationData) :
    Clean (log ++ [e]) := by
  intro m hm
  rcases List.mem_append.1 hm with hm | hm
  · exact h m hm
  · exact hn m (List.mem_singleton.1 hm).symm

theorem along_clean (W : World) (log : List Ev) : Along (NotData W) log ↔ Clean log := by
  constructor
  · intro h m hm
    obtain ⟨pre, post, rfl⟩ := List.append_of_mem hm
    exact h pre _ post rfl m rfl
  · rintro h pre e post rfl m rfl
    exact h m (by simp)

theorem Dead.push {log : List Ev} (h : Dead log) {e : Ev} (he : e ≠ .handle .changeCipherSpec) : Dead (log ++ [e]) := by
  obtain ⟨h1, m, h2, h3⟩ := h
  refine ⟨fun hm => ?_, m, List.mem_append_left _ h2, h3⟩
  rcases List.mem_append.1 hm with hm | hm
  · exact h1 hm
  · exact he (List.mem_singleton.1 hm).symm

/-- Dead connections stay dead while alerts are sent. -/
theorem stable_dead : Stable cfg (fun v => Weak cfg v ∧ Dead v.log) :=
  ⟨fun _ h => h.1, fun v e h hs ha => ⟨(stable_weak cfg).push v e h.1 hs ha, h.2.push fun he => by subst he; cases hs⟩⟩

theorem IoTriple.and {α : Type} {P P' : View → Prop} {f : M Io α} {Q Q' : α → View → Prop} {E E' : View → Prop} (h : IoTriple P f Q E)
    (h' : IoTriple P' f Q' E') : IoTriple (fun v => P v ∧ P' v) f (fun a v => Q a v ∧ Q' a v) (fun v => E v ∧ E' v) := by
  intro io hio
  have h1 := h io hio.1
  have h2 := h' io hio.2
  revert h1 h2
  rcases f io with ⟨c, r⟩
  cases r <;> exact fun h1 h2 => ⟨h1, h2⟩

theorem IoTriple.imp {α : Type} {P : View → Prop} {f : M Io α} {Q Q' : α → View → Prop} {E E' : View → Prop} (h : IoTriple P f Q E)
    (hQ : ∀ a v, Q a v → Q' a v) (hE : ∀ v, E v → E' v) : IoTriple P f Q' E' := by
  intro io hio
  have h1 := h io hio
  revert h1
  rcases f io with ⟨c, r⟩
  cases r with
  | ok a => exact hQ a _
  | _ => exact hE _

theorem KeepsIo.triple {α : Type} {W : World} {f : M Io α} (h : KeepsIo (NotData W) f) :
    IoTriple (fun v => Clean v.log) f (fun _ v => Clean v.log) (fun v => Clean v.log) := by
  intro io hio
  have h1 := (along_clean W _).1 (h io ((along_clean W _).2 hio))
  revert h1
  rcases f io with ⟨c, r⟩
  cases r <;> exact id

theorem open_plain (W : World) (msg : OpaqueMessage) (s : HState) :
    IoTriple (Sound cfg s) (processPlain cfg W msg s) (fun s => Sound cfg s) (Shut cfg) :=
  ((processPlain_spec W msg s).and (keeps_plain (A := NotData W) W msg s).triple).imp (fun _ _ h => h) fun _ h => ⟨h.1, .inl h.2⟩

/-- An unprotected record with application data ends the connection. -/
theorem plain_data (W : World) (msg : OpaqueMessage) (hm : msg.typ = .applicationData) (s : HState) (hs : s ≠ .traffic) :
    IoTriple (fun v => Weak cfg v ∧ Dead v.log) (processPlain cfg W msg s) (fun _ _ => False) (fun v => Weak cfg v ∧ Dead v.log) := by
  have hh : ∀ p, ∀ c, (fun v => Weak cfg v ∧ Dead v.log) (Common.view c) →
      (handle cfg W s (.applicationData p) c = (c, .panicked) ∨
      (∃ e, handle cfg W s (.applicationData p) c = (c, .err e))) := by
    intro p c _
    cases s with
    | initial => exact .inl rfl
    | traffic => exact absurd rfl hs
    | serverHello _ => exact .inr ⟨_, rfl⟩
    | certificate _ _ _ => exact .inr ⟨_, rfl⟩
    | statusOrKx _ _ _ => exact .inr ⟨_, rfl⟩
    | serverKx _ _ => exact .inr ⟨_, rfl⟩
    | doneOrReq _ _ _ => exact .inr ⟨_, rfl⟩
    | done _ _ _ _ => exact .inr ⟨_, rfl⟩
    | ccs _ => exact .inr ⟨_, rfl⟩
    | finished _ => exact .inr ⟨_, rfl⟩
  have habort : ∀ (d : UInt8) (e : CErr), Triple (fun v => Weak cfg v ∧ Dead v.log) (abort W d e : M Common HState) (fun _ _ => False)
      (fun v => Weak cfg v ∧ Dead v.log) := fun d e =>
    Triple.bind (Q := fun _ v => Weak cfg v ∧ Dead v.log) (Triple.sendFatal W stable_dead (fun _ => id) d fun _ => id)
      fun _ => Triple.fail fun _ => id
  have key : ∀ p, Triple (fun v => Weak cfg v ∧ Dead v.log) (processMain cfg W (.applicationData p) s) (fun _ _ => False)
      (fun v => Weak cfg v ∧ Dead v.log) := by
    intro p
    unfold processMain
    refine Triple.get fun c _ => ?_
    rw [if_neg (by simp [isHelloRequest])]
    refine Triple.bind (Q := fun _ v => Weak cfg v ∧ Dead v.log) (Triple.note fun v hv => ⟨hv.1.push trivial (by simp), hv.2.push (by simp)⟩)
      fun _ => ?_
    intro c hc
    unfold rejecting
    rcases hh p c hc with e | ⟨e, he⟩
    · rw [e]; exact hc
    · rw [he]
      cases e with
      | inappropriate got => exact habort _ _ c hc
      | inappropriateHs got => exact habort _ _ c hc
      | _ => exact hc
  unfold processPlain
  rw [hm, if_neg (by simp)]
  exact IoTriple.lift (key msg.payload)

/-- What is left of a function's result. -/
def Left (cfg : ClientCfg) (r : Except CErr HState) (v : View) : Prop :=
  match r with
  | .ok s => Sound cfg s v
  | .error _ => Shut cfg v

theorem open_lift {α : Type} {W : World} {s : HState} {f : M Common α} (h1 : Triple (Live cfg s) f (fun _ => Live cfg s) (Weak cfg))
    (h2 : Keeps (NotData W) f) : IoTriple (Sound cfg s) (lift f) (fun _ => Sound cfg s) (Shut cfg) :=
  ((IoTriple.lift h1).and (KeepsIo.lift h2).triple).imp (fun _ _ h => h) fun _ h => ⟨h.1, .inl h.2⟩

theorem open_frames (W : World) (frames : List OpaqueMessage) (s : HState) :
    IoTriple (Sound cfg s) (frameLoop cfg W frames s) (Left cfg) (Shut cfg) := by
  induction frames generalizing s with
  | nil => exact IoTriple.pure fun _ => id
  | cons msg rest ih =>
    unfold frameLoop
    refine IoTriple.bind (Q := fun _ => Sound cfg s) (IoTriple.modify fun _ h => h) fun _ => ?_
    refine IoTriple.getAt fun io hio => ?_
    cases hd : io.common.decrypting with
    | true =>
      rw [if_pos rfl]
      refine IoTriple.bind (Q := fun _ => Sound cfg s) (IoTriple.lift ?_) fun _ => ih s
      have hdec : ∀ v : View, v = io.common.view → v.flags.2.1 = true := fun v hv => by subst hv; exact hd
      have hl : ∀ (v : View) x, (Sound cfg s v ∧ v = io.common.view) → Live cfg s (v.push (.pushIn msg x)) := fun v x hv =>
        stable_live.push _ _ hv.1.1 rfl (hv.1.1.stage.ccs (hdec v hv.2))
      have hc : ∀ (v : View) x, (Sound cfg s v ∧ v = io.common.view) → Clean (v.push (.pushIn msg x)).log := fun v x hv =>
        hv.1.2.push (by intro m h; cases h)
      exact Triple.ask (fun v _ hv => ⟨hl v _ hv, hc v _ hv⟩) fun v x hv _ => ⟨(hl v x hv).weak, .inl (hc v x hv)⟩
    | false =>
      rw [if_neg (by simp)]
      have hdec : ∀ v : View, v = io.common.view → v.flags.2.1 = false := fun v hv => by subst hv; exact hd
      have hl : ∀ v : View, (Sound cfg s v ∧ v = io.common.view) → Ev.handle .changeCipherSpec ∉ v.log := fun v hv => by
        have := hv.1.1.stage.noCcs (hdec v hv.2)
        rw [mem_significant rfl] at this
        exact this
      by_cases hm : msg.typ = .applicationData
      · have hs : s ≠ .traffic := by
          rintro rfl
          have := hio.1.stage.1
          have h2 := hdec _ rfl
          rw [this] at h2
          cases h2
        refine IoTriple.bind (Q := fun _ v => Weak cfg v ∧ Dead v.log) (IoTriple.lift ?_) fun _ => ?_
        · refine Triple.note fun v hv => ⟨hv.1.1.weak.push (hl v hv) (by simp), fun h => ?_, msg, by simp [View.push], hm⟩
          rcases List.mem_append.1 h with h | h
          · exact hl v hv h
          · simp at h
        · refine IoTriple.bind (IoTriple.catching ((plain_data W msg hm s hs).imp (Q' := fun _ _ => False) (fun _ _ => id)
            (E' := Shut cfg) fun _ h => ⟨h.1, .inr h.2⟩)) fun r => ?_
          cases r with
          | ok s => exact fun _ h => h.elim
          | error e => exact IoTriple.pure fun _ => id
      · refine IoTriple.bind (Q := fun _ => Sound cfg s) (IoTriple.lift ?_) fun _ => ?_
        · exact Triple.note fun v hv => ⟨stable_live.push _ _ hv.1.1 rfl (hl v hv), hv.1.2.push (by intro m h; cases h; exact hm)⟩
        · refine IoTriple.bind (IoTriple.catching (open_plain W msg s)) fun r => ?_
          cases r with
          | ok s => exact ih s
          | error e => exact IoTriple.pure fun _ => id

theorem open_drainIn (W : World) (n : Nat) (s : HState) : IoTriple (Sound cfg s) (drainIn cfg W n s) (Left cfg) (Shut cfg) := by
  induction n generalizing s with
  | zero => exact fun io hio => hio.shut
  | succ n ih =>
    unfold drainIn
    refine IoTriple.bind (Q := fun _ => Sound cfg s) (open_lift (askLive (fun _ => rfl) fun _ _ _ => trivial) (Keeps.ask (W := W) fun _ => rfl)) fun r => ?_
    cases r with
    | none => exact IoTriple.pure fun _ => id
    | some msg =>
      refine IoTriple.bind (IoTriple.catching (open_plain W msg s)) fun r => ?_
      cases r with
      | ok s => exact ih s
      | error e => exact IoTriple.pure fun _ => id

theorem open_body (W : World) (n : Nat) (s : HState) : IoTriple (Sound cfg s) (processBody cfg W n s) (Left cfg) (Shut cfg) := by
  unfold processBody
  refine IoTriple.get fun io _ => ?_
  split
  · exact IoTriple.fail fun _ h => h.shut
  · refine IoTriple.bind (open_lift (flushLive W s) (keeps_flush W)) fun _ => ?_
    refine IoTriple.bind (open_frames W _ s) fun r => ?_
    cases r with
    | error e => exact IoTriple.pure fun _ => id
    | ok s =>
      refine IoTriple.bind (Q := fun _ => Sound cfg s) (open_lift (askLive (fun _ => rfl) fun _ _ _ => trivial) (Keeps.ask (W := W) fun _ => rfl)) fun _ => ?_
      refine IoTriple.bind (open_drainIn W n s) fun r => ?_
      cases r with
      | error e => exact IoTriple.pure fun _ => id
      | ok s =>
        exact IoTriple.bind (open_lift (drainOut_spec W n s) (keeps_drainOut W n)) fun _ => IoTriple.pure fun _ => id

/-! ## Calls -/

/-- The invariant of a connection. -/
def Holds (cfg : ClientCfg) (c : Conn) : Prop := Left cfg c.state c.io.common.view

theorem new_kept {c : Conn} (h : Conn.new cfg = .ok c) : Holds cfg c := by
  have hi := new_inv h
  unfold Conn.new at h
  split at h
  · cases h
  · rename_i common hc
    cases h
    unfold Common.new at hc
    split at hc
    · cases hc
    · cases hc
      exact ⟨hi, fun m hm => by cases hm⟩

theorem Holds.shut {c : Conn} (h : Holds cfg c) : Shut cfg c.io.common.view := by
  unfold Holds Left at h
  cases hs : c.state with
  | ok s => rw [hs] at h; exact h.shut
  | error e => rw [hs] at h; exact h

/-- Functions that keep the properties of logs keep this one. -/
theorem left_keeps {α : Type} {W : World} {f : M Common α} (hk : Keeps (NotData W) f)
    (hf : ∀ P : View → Prop, Stable cfg P → Triple P f (fun _ => P) P) (r : Except CErr HState) (c : Common) (h : Left cfg r c.view) :
    Left cfg r (f c).1.view := by
  have hq : ∀ P : View → Prop, Stable cfg P → P c.view → P (f c).1.view := by
    intro P hP hc
    have := hf P hP c hc
    revert this
    rcases f c with ⟨c1, r⟩
    cases r <;> exact id
  have hc : Clean c.log → Clean (f c).1.log := fun h => (along_clean W _).1 (hk c ((along_clean W _).2 h))
  cases r with
  | ok s => exact ⟨hq _ stable_live h.1, hc h.2⟩
  | error e =>
    rcases h.2 with h2 | h2
    · exact ⟨hq _ (stable_weak cfg) h.1, .inl (hc h2)⟩
    · have := hq _ stable_dead ⟨h.1, h2⟩
      exact ⟨this.1, .inr this.2⟩

theorem step_kept (W : World) (c : Conn) (k : Call) (h : Holds cfg c) : Holds cfg (c.step cfg W k).1 := by
  cases k with
  | start =>
    show Holds cfg (callStart cfg W c).1
    unfold callStart
    cases hs : c.state with
    | error e => exact h
    | ok s =>
      cases s with
      | initial =>
        have hl : Sound cfg .initial c.io.common.view := by
          have := h
          unfold Holds Left at this
          rw [hs] at this
          exact this
        have h1 := start_spec (cfg := cfg) W c.io.common hl.1
        have h2 := (along_clean W _).1 (keeps_startHandshake (cfg := cfg) (A := NotData W) W c.io.common ((along_clean W _).2 hl.2))
        revert h1 h2
        simp only
        rcases startHandshake cfg W c.io.common with ⟨c1, r⟩
        cases r with
        | ok s => exact fun h1 h2 => ⟨h1, h2⟩
        | _ => exact fun h1 h2 => ⟨h1, .inl h2⟩
      | _ => exact h.shut
  | process n =>
    show Holds cfg (callProcess cfg W n c).1
    unfold callProcess
    cases hs : c.state with
    | error e => exact h
    | ok s =>
      have hl : Sound cfg s c.io.common.view := by
        have := h
        unfold Holds Left at this
        rw [hs] at this
        exact this
      have := open_body (cfg := cfg) W n s c.io hl
      revert this
      simp only
      rcases processBody cfg W n s c.io with ⟨c1, r⟩
      cases r with
      | ok r => cases r <;> exact id
      | _ => exact id
  | readTls avail => exact h
  | writePlaintext buf =>
    show Holds cfg (callWrite buf c).1
    unfold callWrite
    split <;> exact h
  | readPlaintext room => exact h
  | writeTls accept => exact h
  | sendCloseNotify =>
    exact left_keeps (f := sendWarning W 0) (keeps_sendWarning (A := NotData W) W 0)
      (fun P hP => Triple.sendWarning W hP (fun _ => id) 0 fun _ => id) c.state c.io.common h
  | serverClosed =>
    exact left_keeps (f := ask W.close .close .backend) (Keeps.ask (A := NotData W) (W := W) fun _ => rfl)
      (fun P hP => Triple.ask (fun v _ hv => hP.push _ _ hv rfl trivial) fun v x hv _ => hP.push _ _ hv rfl trivial) c.state c.io.common h
  | enableDecryption b =>
    exact left_keeps (W := W) (f := note (.enable b)) (fun c hc => Along.snoc hc (by intro m h; cases h))
      (fun P hP => Triple.note fun v hv => hP.push _ _ hv rfl trivial) c.state c.io.common h

theorem run_kept (W : World) (c0 : Conn) (h : Conn.new cfg = .ok c0) (calls : List Call) : Holds cfg (c0.run cfg W calls).1 :=
  Sdk.runCalls_inv (P := fun c _ => Holds cfg c) (new_kept h) (fun s _ k hs => step_kept W s k hs) calls

/-! ## What is read -/

/-- Messages that the record layer of the leader opened. -/
def Ev.opened : Ev → List OpaqueMessage
  | .nextIn (.ok (some m)) => [m]
  | _ => []

theorem Clean.heard {log : List Ev} (h : Clean log) : (heardOf log).flatMap dataOf = (log.flatMap Ev.opened).flatMap dataOf := by
  induction log with
  | nil => rfl
  | cons e log ih =>
    have ih := ih fun m hm => h m (List.mem_cons_of_mem _ hm)
    rw [show heardOf (e :: log) = e.heard ++ heardOf log from List.flatMap_cons .., List.flatMap_cons, List.flatMap_append,
      List.flatMap_append, ih]
    congr 1
    cases e with
    | plain m =>
      have := h m List.mem_cons_self
      simp [Ev.heard, Ev.opened, dataOf, this]
    | nextIn r => rcases r with (_ | _) | _ | _ <;> rfl
    | _ => rfl

theorem Dead.delivered {log : List Ev} (h : Dead log) (hg : Good cfg log) : deliveredOf log = [] := by
  unfold deliveredOf
  rw [List.flatMap_eq_nil_iff]
  intro e he
  cases e with
  | deliver b =>
    obtain ⟨pre, post, rfl⟩ := List.append_of_mem he
    obtain ⟨d, hd, hp⟩ := hg.at rfl
    refine absurd ?_ h.1
    have : Ev.handle .changeCipherSpec ∈ significant pre := hp.subset (by simp [Session.script, Session.upToVerified, Session.upToServerFinished, Session.upToServerCcs])
    exact List.mem_append_left _ (List.mem_filter.1 this).1
  | _ => rfl

/-- C78.  What the caller reads is, from its beginning and without gaps, the application data in the messages that the backend opened:
nothing that came in records that are not protected gets to the caller. -/
theorem C78_protected (W : World) (c0 : Conn) (h : Conn.new cfg = .ok c0) (calls : List Call) :
    readOut (c0.run cfg W calls).2 <+: ((c0.run cfg W calls).1.io.common.log.flatMap Ev.opened).flatMap dataOf := by
  have hk := (run_kept W c0 h calls).shut
  rcases hk.2 with hc | hd
  · rw [← Clean.heard (log := (c0.run cfg W calls).1.io.common.log) hc]
    exact (C78_received W c0 h calls).1
  · obtain ⟨R, hf, -⟩ := whole_run W h calls
    have hr := hf.received
    rw [Dead.delivered (log := (c0.run cfg W calls).1.io.common.log) hd hk.1.good] at hr
    have : readOut (c0.run cfg W calls).2 = [] := (List.append_eq_nil_iff.1 hr.symm).1
    rw [this]
    exact List.nil_prefix

/-- A server that sends data before the handshake, which is heard but not read, and one that sends it afterwards. -/
example : let early := demoConn.run demoCfg demoWorld [.start, .readTls [0x17, 3, 3, 0, 2, 0x68, 0x69], .process 10, .readPlaintext 100];
      let late := demoConn.run demoCfg demoWorld demoCalls;
    ((heardOf early.1.io.common.log).flatMap dataOf, readOut early.2, (early.1.io.common.log.flatMap Ev.opened).flatMap dataOf) =
      ([0x68, 0x69], [], []) ∧
    (readOut late.2, (late.1.io.common.log.flatMap Ev.opened).flatMap dataOf) = ([0x68, 0x69], [0x68, 0x69]) := by decide +kernel

end Tlsn.Client
