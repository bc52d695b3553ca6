import Verif.Client.Conn
import Verif.Sdk.MachineProps

/-! # The history of a connection holds what the calls were answered -/

namespace Tlsn.Client

variable {α β : Type} {cfg : ClientCfg}

/-- An event that is a call to the outside holds the answer that the call got, when it was made after `pre`. -/
def AnswerOf (W : World) (pre : List Ev) : Ev → Prop
  | .sessionId r => r = W.sessionId pre
  | .random r => r = W.random pre
  | .keyShare r => r = W.keyShare pre
  | .now t => t = W.now pre
  | .sign scheme message r => r = W.sign pre scheme message
  | .prepare hs r => r = W.prepare pre hs
  | .clientVd h r => r = W.clientVd pre h
  | .serverVd h r => r = W.serverVd pre h
  | .startTraffic r => r = W.startTraffic pre
  | .pushIn m r => r = W.pushIn pre m
  | .pushOut m r => r = W.pushOut pre m
  | .flush r => r = W.flush pre
  | .nextIn r => r = W.nextIn pre
  | .nextOut r => r = W.nextOut pre
  | .close r => r = W.close pre
  | _ => True

/-- Each event of a history fits what was before it. -/
def Along (A : List Ev → Ev → Prop) (log : List Ev) : Prop := ∀ pre e post, log = pre ++ e :: post → A pre e

/-- So do all. -/
def Faithful (W : World) (log : List Ev) : Prop := Along (AnswerOf W) log

/-- `A` allows all events with true answers, except that it may not allow all records that are taken as plaintext. -/
class Fits (W : outParam World) (A : List Ev → Ev → Prop) : Prop where
  fits : ∀ pre e, AnswerOf W pre e → (∀ m, e ≠ .plain m) → A pre e

theorem Along.snoc {A : List Ev → Ev → Prop} {log : List Ev} {e : Ev} (h : Along A log) (he : A log e) : Along A (log ++ [e]) := by
  intro pre x post hl
  rcases List.eq_nil_or_concat post with rfl | ⟨post, y, rfl⟩
  · obtain ⟨rfl, h2⟩ := List.append_inj' hl rfl
    injection h2 with h2
    exact h2 ▸ he
  · rw [List.concat_eq_append, ← List.cons_append, ← List.append_assoc] at hl
    obtain ⟨h1, -⟩ := List.append_inj' hl rfl
    exact h pre x post h1

theorem Faithful.snoc {W : World} {log : List Ev} {e : Ev} (h : Faithful W log) (he : AnswerOf W log e) : Faithful W (log ++ [e]) :=
  Along.snoc h he

instance (W : World) : Fits W (AnswerOf W) := ⟨fun _ _ h _ => h⟩

/-- A function keeps the history right. -/
def Keeps (A : List Ev → Ev → Prop) (f : M Common α) : Prop := ∀ c, Along A c.log → Along A (f c).1.log

variable {A : List Ev → Ev → Prop}

theorem Keeps.pure {a : α} : Keeps A (Pure.pure a : M Common α) := fun _ h => h
theorem Keeps.get : Keeps A (M.get : M Common Common) := fun _ h => h
theorem Keeps.fail {e : CErr} : Keeps A (M.fail e : M Common α) := fun _ h => h
theorem Keeps.panic : Keeps A (M.panic : M Common α) := fun _ h => h
theorem Keeps.modify {f : Common → Common} (hf : ∀ c, (f c).log = c.log) : Keeps A (M.modify f) := fun c h => by
  show Along A (f c).log
  rw [hf]
  exact h

theorem Keeps.note {W : World} [Fits W A] {e : Ev} (he : ∀ pre, AnswerOf W pre e) (hp : ∀ m, e ≠ .plain m := by intro m h; cases h) :
    Keeps A (note e) := fun _ h => h.snoc (Fits.fits _ _ (he _) hp)

theorem Keeps.ask {W : World} [Fits W A] {r : List Ev → Reply α} {ev : Reply α → Ev} {toErr : Nat → CErr}
    (he : ∀ pre, AnswerOf W pre (ev (r pre))) (hp : ∀ x m, ev x ≠ .plain m := by intro x m h; cases h) : Keeps A (ask r ev toErr) := fun c h => by
  have := h.snoc (Fits.fits _ _ (he c.log) (hp _))
  unfold Client.ask
  simp only
  cases hr : r c.log <;> rw [hr] at this <;> exact this

theorem Keeps.bind {f : M Common α} {g : α → M Common β} (hf : Keeps A f) (hg : ∀ a, Keeps A (g a)) :
    Keeps A (f >>= g) := fun c h => by
  have h1 := hf c h
  show Along A (M.bind f g c).1.log
  unfold M.bind
  cases hc : f c with
  | mk c' r =>
    rw [hc] at h1
    cases r with
    | ok a => exact hg a c' h1
    | _ => exact h1

/-- Goes through the code of a function. -/
syntax "keeps" : tactic
macro_rules
  | `(tactic| keeps) => `(tactic| repeat' first
    | assumption
    | exact Keeps.pure
    | exact Keeps.get
    | exact Keeps.fail
    | exact Keeps.panic
    | exact Keeps.modify fun _ => rfl
    | exact Keeps.note fun _ => trivial
    | exact Keeps.ask fun _ => rfl
    | refine Keeps.bind ?_ fun _ => ?_
    | split)

variable (W : World) [Fits W A]

theorem keeps_pushAll (ms : List OpaqueMessage) : Keeps A (pushAll W ms) := by
  induction ms with
  | nil => exact Keeps.pure
  | cons m ms ih => exact Keeps.bind (Keeps.ask fun _ => rfl) fun _ => ih

theorem keeps_queueAll (ms : List OpaqueMessage) : Keeps A (queueAll ms) := by
  induction ms with
  | nil => exact Keeps.pure
  | cons m ms ih => exact Keeps.bind (Keeps.modify fun _ => rfl) fun _ => ih

theorem keeps_sendMsg (v : ProtocolVersion) (m : MessagePayload) (b : Bool) : Keeps A (sendMsg W v m b) := by
  have h1 := keeps_pushAll (A := A) W
  have h2 := keeps_queueAll (A := A)
  unfold sendMsg
  refine Keeps.bind Keeps.get fun c => ?_
  split
  · exact Keeps.bind (Keeps.note fun _ => trivial) fun _ => h1 _
  · exact Keeps.bind (Keeps.note fun _ => trivial) fun _ => h2 _

theorem keeps_sendFatal (d : UInt8) : Keeps A (sendFatal W d) :=
  Keeps.bind Keeps.get fun _ => Keeps.bind (keeps_sendMsg W _ _ _) fun _ => Keeps.modify fun _ => rfl

theorem keeps_sendWarning (d : UInt8) : Keeps A (sendWarning W d) := Keeps.bind Keeps.get fun _ => keeps_sendMsg W _ _ _

theorem keeps_abort (d : UInt8) (e : CErr) : Keeps A (abort W d e : M Common α) := Keeps.bind (keeps_sendFatal W d) fun _ => Keeps.fail

theorem keeps_aligned : Keeps A (checkAligned W) := by
  refine Keeps.bind Keeps.get fun c => ?_
  split
  · exact Keeps.pure
  · exact keeps_abort W _ _

theorem keeps_flushLoop (n : Nat) : Keeps A (flushLoop W n) := by
  induction n with
  | zero => exact Keeps.pure
  | succ n ih =>
    refine Keeps.bind Keeps.get fun c => ?_
    split
    · exact Keeps.pure
    · exact Keeps.bind (Keeps.modify fun _ => rfl) fun _ =>
        Keeps.bind (Keeps.bind Keeps.get fun _ => keeps_pushAll W _) fun _ => ih

theorem keeps_flush : Keeps A (flushPlaintext W) := by
  refine Keeps.bind Keeps.get fun c => ?_
  split
  · exact keeps_flushLoop W _
  · exact Keeps.pure

theorem keeps_startTraffic : Keeps A (startTraffic W) :=
  Keeps.bind (Keeps.modify fun _ => rfl) fun _ => Keeps.bind (Keeps.ask fun _ => rfl) fun _ =>
  Keeps.bind (Keeps.modify fun _ => rfl) fun _ => keeps_flush W

theorem keeps_alert (l d : UInt8) : Keeps A (processAlert W l d) := by
  have rest : Keeps A (if d = 0 then M.modify fun c => { c with closeNotify := true }
      else if l = 1 then pure () else M.fail (.alertReceived d)) := by keeps
  unfold processAlert
  simp only
  split
  · exact Keeps.bind (keeps_sendFatal W _) fun _ => rest
  · exact rest

theorem keeps_startHandshake : Keeps A (startHandshake cfg W) :=
  Keeps.bind (Keeps.ask fun _ => rfl) fun _ => Keeps.bind (Keeps.ask fun _ => rfl) fun _ =>
  Keeps.bind (keeps_sendMsg W _ _ _) fun _ => Keeps.pure

theorem keeps_alpn (p : Option Bytes) : Keeps A (processAlpn cfg W p) := by
  refine Keeps.bind (Keeps.modify fun _ => rfl) fun _ => ?_
  split
  · split
    · exact Keeps.pure
    · exact keeps_abort W _ _
  · exact Keeps.pure

theorem keeps_serverHello (s : HelloCtx) (m : MessagePayload) : Keeps A (handleServerHello cfg W s m) := by
  unfold handleServerHello completeServerHello illegalParam
  simp only
  have h1 : ∀ d e, Keeps A (abort W d e : M Common HState) := keeps_abort W
  have h2 := keeps_alpn (A := A) (cfg := cfg) W
  repeat' first
    | exact h1 _ _
    | exact h2 _
    | exact Keeps.pure
    | exact Keeps.fail
    | exact Keeps.modify fun _ => rfl
    | refine Keeps.bind ?_ fun _ => ?_
    | split

theorem keeps_certificate (x : Ctx) (b : Bool) (scts : Option (List Bytes)) (m : MessagePayload) : Keeps A (handleCertificate x b scts m) := by
  unfold handleCertificate
  simp only
  keeps

theorem keeps_serverKx (x : Ctx) (cert : CertDetails) (m : MessagePayload) : Keeps A (handleServerKx W x cert m) := by
  unfold handleServerKx
  split
  · split
    · exact keeps_abort W _ _
    · exact Keeps.pure
  · exact Keeps.fail

theorem keeps_statusOrKx (x : Ctx) (scts : Option (List Bytes)) (chain : List Bytes) (m : MessagePayload) :
    Keeps A (handleStatusOrKx W x scts chain m) := by
  unfold handleStatusOrKx
  split
  · exact keeps_serverKx W _ _ _
  · exact Keeps.pure
  · exact Keeps.fail

theorem keeps_emit (t : HandshakeHash) (m : MessagePayload) : Keeps A (emit W t m) :=
  Keeps.bind (keeps_sendMsg W _ _ _) fun _ => Keeps.pure

theorem keeps_askNow : Keeps A (askNow W) := fun c h => by
  exact h.snoc (e := .now (W.now c.log)) (Fits.fits _ _ rfl (by intro m h; cases h))

theorem keeps_verifyServer (x : Ctx) (cert : CertDetails) (kx : KxDetails) : Keeps A (verifyServer cfg W x cert kx) := by
  unfold verifyServer
  split
  · exact Keeps.fail
  · refine Keeps.bind (keeps_askNow W) fun _ => ?_
    split
    · exact keeps_abort W _ _
    · split
      · exact Keeps.fail
      · split
        · exact keeps_abort W _ _
        · exact Keeps.pure

theorem keeps_emitCertificate (auth : Option ClientAuth) (t : HandshakeHash) : Keeps A (emitCertificate W auth t) := by
  unfold emitCertificate
  split
  · exact Keeps.pure
  · exact keeps_emit W _ _
  · exact keeps_emit W _ _

theorem keeps_emitCertVerify (auth : Option ClientAuth) (t : HandshakeHash) : Keeps A (emitCertVerify W auth t) := by
  unfold emitCertVerify
  split
  · split
    · exact Keeps.fail
    · exact Keeps.bind (Keeps.ask fun _ => rfl) fun _ => keeps_emit W _ _
  · exact Keeps.pure

theorem keeps_serverDone (x : Ctx) (cert : CertDetails) (kx : KxDetails) (auth : Option ClientAuth) (m : MessagePayload) :
    Keeps A (handleServerDone cfg W x cert kx auth m) := by
  unfold handleServerDone
  split
  · refine Keeps.bind (keeps_aligned W) fun _ => Keeps.bind (keeps_verifyServer W _ _ _) fun _ =>
      Keeps.bind (keeps_emitCertificate W _ _) fun _ => ?_
    split
    · exact keeps_abort W _ _
    · refine Keeps.bind (Keeps.ask fun _ => rfl) fun _ => ?_
      split
      · exact Keeps.fail
      · exact Keeps.bind (keeps_emit W _ _) fun _ => Keeps.bind (keeps_emitCertVerify W _ _) fun _ =>
          Keeps.bind (keeps_sendMsg W _ _ _) fun _ => Keeps.bind (Keeps.ask fun _ => rfl) fun _ =>
          Keeps.bind (Keeps.modify fun _ => rfl) fun _ => Keeps.bind (Keeps.ask fun _ => rfl) fun _ =>
          Keeps.bind (keeps_sendMsg W _ _ _) fun _ => Keeps.pure
  · exact Keeps.fail

theorem keeps_handle (s : HState) (m : MessagePayload) : Keeps A (handle cfg W s m) := by
  unfold handle
  split
  · exact Keeps.panic
  · exact keeps_serverHello W _ _
  · exact keeps_certificate _ _ _ _
  · exact keeps_statusOrKx W _ _ _ _
  · exact keeps_serverKx W _ _ _
  · unfold handleDoneOrReq
    split
    · exact Keeps.pure
    · exact keeps_serverDone W _ _ _ _ _
  · exact keeps_serverDone W _ _ _ _ _
  · unfold handleCcs
    split
    · exact Keeps.bind (keeps_aligned W) fun _ => Keeps.bind (Keeps.modify fun _ => rfl) fun _ => Keeps.pure
    · exact Keeps.fail
  · unfold handleFinished
    split
    · refine Keeps.bind (keeps_aligned W) fun _ => Keeps.bind (Keeps.ask fun _ => rfl) fun _ => ?_
      split
      · exact Keeps.bind (keeps_startTraffic W) fun _ => Keeps.pure
      · exact keeps_abort W _ _
    · exact Keeps.fail
  · unfold handleTraffic takePlaintext
    keeps

theorem keeps_rejecting {f : M Common HState} (hf : Keeps A f) : Keeps A (rejecting W f) := fun c h => by
  have h1 := hf c h
  unfold rejecting
  cases hc : f c with
  | mk c' r =>
    rw [hc] at h1
    cases r with
    | err e =>
      cases e <;> first | exact keeps_abort W _ _ c' h1 | exact h1
    | _ => exact h1

theorem keeps_main (m : MessagePayload) (s : HState) : Keeps A (processMain cfg W m s) := by
  refine Keeps.bind Keeps.get fun c => ?_
  split
  · exact Keeps.bind (keeps_sendWarning W _) fun _ => Keeps.pure
  · exact Keeps.bind (Keeps.note fun _ => trivial) fun _ => keeps_rejecting W (keeps_handle W _ _)

/-! ## The connection -/

/-- A function of the connection keeps the history right. -/
def KeepsIo (A : List Ev → Ev → Prop) (f : M Io α) : Prop := ∀ io, Along A io.common.log → Along A (f io).1.common.log

theorem KeepsIo.lift {f : M Common α} (h : Keeps A f) : KeepsIo A (lift f) := fun io hi => h io.common hi

theorem KeepsIo.pure {a : α} : KeepsIo A (Pure.pure a : M Io α) := fun _ h => h

theorem KeepsIo.modify {f : Io → Io} (hf : ∀ io, (f io).common = io.common) : KeepsIo A (M.modify f) := fun io h => by
  show Along A (f io).common.log
  rw [hf]
  exact h

theorem KeepsIo.bind {f : M Io α} {g : α → M Io β} (hf : KeepsIo A f) (hg : ∀ a, KeepsIo A (g a)) : KeepsIo A (f >>= g) := fun c h => by
  have h1 := hf c h
  show Along A (M.bind f g c).1.common.log
  unfold M.bind
  cases hc : f c with
  | mk c' r =>
    rw [hc] at h1
    cases r with
    | ok a => exact hg a c' h1
    | _ => exact h1

theorem keeps_joinLoop (ms : List HandshakeMessage) : ∀ s, KeepsIo A (joinLoop cfg W ms s) := by
  induction ms with
  | nil => exact fun s => KeepsIo.pure
  | cons m ms ih =>
    exact fun s => KeepsIo.bind (KeepsIo.modify fun _ => rfl) fun _ => KeepsIo.bind (KeepsIo.lift (keeps_main W _ _)) fun _ => ih _

theorem keeps_plain (msg : OpaqueMessage) (s : HState) : KeepsIo A (processPlain cfg W msg s) := by
  unfold processPlain
  split
  · intro io h
    unfold processHs
    split
    · exact KeepsIo.lift (keeps_abort W _ _) _ h
    · exact keeps_joinLoop W _ _ _ h
  · split
    · exact fun io h => h
    · exact KeepsIo.bind (KeepsIo.lift (keeps_alert W _ _)) fun _ => KeepsIo.pure
    · exact KeepsIo.lift (keeps_main W _ _)

theorem keeps_catching {f : M Io α} (hf : KeepsIo A f) : KeepsIo A (catching f) := fun io h => by
  have h1 := hf io h
  unfold catching
  cases hc : f io with
  | mk io' r =>
    rw [hc] at h1
    cases r <;> exact h1

theorem keeps_frameLoop (ms : List OpaqueMessage) : ∀ s, KeepsIo (AnswerOf W) (frameLoop cfg W ms s) := by
  induction ms with
  | nil => exact fun s => KeepsIo.pure
  | cons m ms ih =>
    intro s
    refine KeepsIo.bind (KeepsIo.modify fun _ => rfl) fun _ => KeepsIo.bind (fun _ h => h) fun io => ?_
    split
    · exact KeepsIo.bind (KeepsIo.lift (Keeps.ask fun _ => rfl)) fun _ => ih _
    · refine KeepsIo.bind (KeepsIo.lift (fun _ h => Along.snoc h trivial)) fun _ =>
        KeepsIo.bind (keeps_catching (keeps_plain W _ _)) fun r => ?_
      split
      · exact KeepsIo.pure
      · exact ih _

theorem keeps_drainIn (n : Nat) : ∀ s, KeepsIo (AnswerOf W) (drainIn cfg W n s) := by
  induction n with
  | zero => exact fun s io h => h
  | succ n ih =>
    intro s
    refine KeepsIo.bind (KeepsIo.lift (Keeps.ask fun _ => rfl)) fun r => ?_
    split
    · exact KeepsIo.pure
    · refine KeepsIo.bind (keeps_catching (keeps_plain W _ _)) fun r => ?_
      split
      · exact KeepsIo.pure
      · exact ih _

theorem keeps_drainOut (n : Nat) : Keeps A (drainOut W n) := by
  induction n with
  | zero => exact fun c h => h
  | succ n ih =>
    refine Keeps.bind (Keeps.ask fun _ => rfl) fun r => ?_
    split
    · exact Keeps.pure
    · exact Keeps.bind (Keeps.modify fun _ => rfl) fun _ => ih

theorem keeps_body (n : Nat) (s : HState) : KeepsIo (AnswerOf W) (processBody cfg W n s) := by
  refine KeepsIo.bind (fun _ h => h) fun io => ?_
  split
  · exact fun _ h => h
  · refine KeepsIo.bind (KeepsIo.lift (keeps_flush W)) fun _ => KeepsIo.bind (keeps_frameLoop W _ _) fun r => ?_
    split
    · exact KeepsIo.pure
    · refine KeepsIo.bind (KeepsIo.lift (Keeps.ask fun _ => rfl)) fun _ => KeepsIo.bind (keeps_drainIn W _ _) fun r => ?_
      split
      · exact KeepsIo.pure
      · exact KeepsIo.bind (KeepsIo.lift (keeps_drainOut W _)) fun _ => KeepsIo.pure

theorem keeps_step (c : Conn) (k : Call) (h : Faithful W c.io.common.log) : Faithful W (c.step cfg W k).1.io.common.log := by
  cases k with
  | start =>
    have h1 := keeps_startHandshake (cfg := cfg) W c.io.common h
    simp only [Conn.step, callStart]
    split
    · exact h
    · split <;> rename_i e <;> rw [e] at h1 <;> exact h1
    · exact h
  | process n =>
    simp only [Conn.step, callProcess]
    split
    · exact h
    · rename_i s _
      have h1 := keeps_body (cfg := cfg) W n s c.io h
      split <;> rename_i e <;> rw [e] at h1 <;> exact h1
  | writePlaintext buf =>
    simp only [Conn.step, callWrite]
    split <;> exact h
  | sendCloseNotify => exact keeps_sendWarning W _ _ h
  | serverClosed => exact Keeps.ask (W := W) (r := W.close) (ev := .close) (fun _ => rfl) (by intro x m h; cases h) _ h
  | enableDecryption b => exact Keeps.note (W := W) (e := .enable b) (fun _ => trivial) (by intro m h; cases h) _ h
  | readTls a => exact h
  | readPlaintext r => exact h
  | writeTls a => exact h

/-- C81.  The history of a connection is true: whatever a call is noted to have returned is what the outside returned, given what had happened
before. -/
theorem C81_answers (c0 : Conn) (h : Conn.new cfg = .ok c0) (calls : List Call) : Faithful W (c0.run cfg W calls).1.io.common.log := by
  have hlog : c0.io.common.log = [] := by
    unfold Conn.new Common.new at h
    split at h
    · cases h
    · rename_i common he
      cases h
      split at he
      · cases he
      · cases he
        rfl
  have h0 : Faithful W c0.io.common.log := by
    rw [hlog]
    intro pre e post hl
    simp at hl
  exact Sdk.runCalls_inv (P := fun (c : Conn) _ => Faithful W c.io.common.log) h0 (fun c _ k hc => keeps_step W c k hc) calls

end Tlsn.Client
