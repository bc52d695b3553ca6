import Verif.Client.ConnProps
import Verif.Client.FlowRun
import Verif.Client.Demo
import Verif.Session.LeaderSpec

/-! # Properties of the TLS client -/

namespace Tlsn.Client

variable {cfg : ClientCfg}

/-! ## C77: nothing without an authenticated server -/

theorem Good.at {log pre post : List Ev} {e : Ev} (h : Good cfg log) (hl : log = pre ++ e :: post) : Allowed cfg pre e := h pre e post hl

theorem Authenticated.more {pre post : List Ev} (h : Authenticated cfg pre) : Authenticated cfg (pre ++ post) := by
  obtain ⟨d, h1, h2⟩ := h
  refine ⟨d, h1, h2.trans ?_⟩
  rw [significant_append]
  exact List.prefix_append _ _

theorem exists_of_flatMap_ne {α β : Type} {l : List α} {f : α → List β} (h : l.flatMap f ≠ []) : ∃ a ∈ l, f a ≠ [] := by
  induction l with
  | nil => simp at h
  | cons a l ih =>
    by_cases ha : f a = []
    · have : l.flatMap f ≠ [] := by
        intro h'
        apply h
        rw [List.flatMap_cons, ha, h']
        rfl
      obtain ⟨b, hb, hb2⟩ := ih this
      exact ⟨b, List.mem_cons_of_mem _ hb, hb2⟩
    · exact ⟨a, List.mem_cons_self, ha⟩

/-- C77.  Whatever the server, the leader and the caller do: application data is made available, given to the leader to be sent,
and read by the caller only after a whole handshake with an authenticated server; and only then does the connection say that
it is not handshaking. -/
theorem C77_authenticated (W : World) (c0 : Conn) (h : Conn.new cfg = .ok c0) (calls : List Call) :
    let c := (c0.run cfg W calls).1
    let out := (c0.run cfg W calls).2
    (∀ pre e post, c.io.common.log = pre ++ e :: post → e.delivered ≠ [] ∨ e.sent ≠ [] → Authenticated cfg pre) ∧
    (readOut out ≠ [] → Authenticated cfg c.io.common.log) ∧
    (c.isHandshaking = false → Authenticated cfg c.io.common.log) := by
  intro c out
  have hw := (run_inv W c0 h calls).weak
  have hfirst : ∀ pre e post, c.io.common.log = pre ++ e :: post → e.delivered ≠ [] ∨ e.sent ≠ [] → Authenticated cfg pre := by
    intro pre e post hl he
    have ha := hw.good.at hl
    cases e with
    | deliver p => exact ha
    | pushOut m r =>
      refine ha.1 ?_
      rcases he with he | he
      · exact absurd rfl he
      · by_contra hm
        exact he (by simp [Ev.sent, dataOf, hm])
    | _ => rcases he with he | he <;> exact absurd rfl he
  refine ⟨hfirst, fun hr => ?_, fun hh => ?_⟩
  · obtain ⟨R, hf, -⟩ := whole_run W h calls
    have hd : deliveredOf c.io.common.log ≠ [] := by
      intro h0
      have := hf.received
      rw [show deliveredOf _ = [] from h0] at this
      exact hr (List.append_eq_nil_iff.1 this.symm).1
    obtain ⟨e, he, hne⟩ := exists_of_flatMap_ne hd
    obtain ⟨pre, post, hl⟩ := List.append_of_mem he
    have := hfirst pre e post hl (.inl hne)
    rw [hl]
    exact this.more
  · have hs : c.io.common.maySend = true := by
      simp only [Conn.isHandshaking, Bool.not_eq_false', Bool.and_eq_true] at hh
      exact hh.1
    exact hw.traffic hs

/-- A connection on which a handshake completes, and the caller reads what the server has sent. -/
example : (readOut (demoConn.run demoCfg demoWorld demoCalls).2 = [0x68, 0x69]) ∧
    (demoConn.run demoCfg demoWorld demoCalls).1.isHandshaking = false ∧
    sentOf (demoConn.run demoCfg demoWorld demoCalls).1.io.common.log = [1, 2, 3] := by
  decide +kernel

/-! ## C78: the bytes are not changed -/

/-- C78.  What the caller reads is, from its beginning and without gaps, the application data of the messages that were heard;
while the connection has not failed, what the caller has read and what it can still read is all of that data. -/
theorem C78_received (W : World) (c0 : Conn) (h : Conn.new cfg = .ok c0) (calls : List Call) :
    let c := (c0.run cfg W calls).1
    let out := (c0.run cfg W calls).2
    readOut out <+: (heardOf c.io.common.log).flatMap dataOf ∧
    ((∃ s, c.state = .ok s) → ∀ room, c.io.common.received.len ≤ room →
      readOut out ++ (c.io.common.received.read room).2 = (heardOf c.io.common.log).flatMap dataOf) := by
  intro c out
  obtain ⟨R, hf, -⟩ := whole_run W h calls
  have hr := hf.received
  constructor
  · have hw := hf.weaken.data
    exact List.IsPrefix.trans ⟨_, hr.symm⟩ hw
  · rintro ⟨s, hs⟩ room hroom
    have hd := hf.data
    have hok : isOk (c0.run cfg W calls).1.state = true := by rw [show (c0.run cfg W calls).1.state = _ from hs]; rfl
    rw [hok] at hd
    simp only [if_true, fluxOf, List.append_nil] at hd
    obtain ⟨r1, -, -⟩ := readChunks_spec (c.io.common.received.chunks.length + 1) c.io.common.received.chunks room hf.chunks
      (Nat.lt_succ_self _)
    have hread : (c.io.common.received.read room).2 = c.io.common.received.chunks.flatten := by
      show (readChunks _ _ _).2 = _
      rw [r1]
      exact List.take_of_length_le (by rw [← vecBuf_len]; exact hroom)
    rw [hread]
    exact hr.symm.trans hd

/-- C78.  The records that were processed or given to the leader, and those that wait, are those at the beginning of the bytes that
were read from the server. -/
theorem C78_records (W : World) (c0 : Conn) (h : Conn.new cfg = .ok c0) (calls : List Call) :
    let c := (c0.run cfg W calls).1
    let out := (c0.run cfg W calls).2
    Deframed (wireIn out) (recordsOf c.io.common.log ++ c.io.deframer.frames) c.io.deframer.desynced
      (c.io.deframer.buf.take c.io.deframer.used) := by
  intro c out
  obtain ⟨R, hf, hd⟩ := whole_run W h calls
  have := deframed_split (wireIn out)
  rw [show splitAll opaqueFront (wireIn out) = _ from hd.split] at this
  have hr : recordsOf c.io.common.log = R := hf.recs
  rw [hr]
  exact this

theorem process_tidy (W : World) (c0 : Conn) (h : Conn.new cfg = .ok c0) (calls : List Call) (n : Nat) (w r : Nat)
    (hp : ((c0.run cfg W calls).1.step cfg W (.process n)).2 = .io w r) :
    ((c0.run cfg W calls).1.step cfg W (.process n)).1.io.common.maySend = true →
      ((c0.run cfg W calls).1.step cfg W (.process n)).1.io.common.sendable.chunks = [] := by
  obtain ⟨hf, -⟩ := whole_new h
  have hw : IoFlow (fluxOf c0.io.common.fragmenter (c0.run cfg W calls).2) (wireIn (c0.run cfg W calls).2)
    (isOk (c0.run cfg W calls).1.state) (c0.run cfg W calls).1.io := whole_run W h calls
  generalize (c0.run cfg W calls).1 = c at hp hw ⊢
  generalize (c0.run cfg W calls).2 = out at hw
  obtain ⟨st, io⟩ := c
  revert hp
  show (callProcess cfg W n ⟨st, io⟩).2 = _ → (callProcess cfg W n ⟨st, io⟩).1.io.common.maySend = true →
    (callProcess cfg W n ⟨st, io⟩).1.io.common.sendable.chunks = []
  unfold callProcess
  cases st with
  | error e => intro hp; cases hp
  | ok hst =>
    have := io_processBody (cfg := cfg) (F := { fluxOf c0.io.common.fragmenter out with tidy := True }) (consumed := wireIn out)
      W hf n hst io hw
    simp only
    revert this
    rcases processBody cfg W n hst io with ⟨io', r⟩
    cases r with
    | ok a =>
      cases a with
      | ok s =>
        intro hk _
        obtain ⟨R, h1, -⟩ := hk
        exact h1.tidy rfl trivial
      | error e => intro _ hp; cases hp
    | err e => intro _ hp; cases hp
    | dropped => intro _ hp; cases hp
    | panicked => intro _ hp; cases hp

theorem run_snoc (W : World) (c0 : Conn) (calls : List Call) (k : Call) :
    c0.run cfg W (calls ++ [k]) = (((c0.run cfg W calls).1.step cfg W k).1,
      (c0.run cfg W calls).2 ++ [(k, ((c0.run cfg W calls).1.step cfg W k).2)]) := Sdk.runCalls_snoc _ _

/-- C78.  What is given to the leader to be encrypted as application data is, from its beginning and without gaps, what was accepted
from the caller, in records of at most the configured size.  When `process` succeeds and the connection is not handshaking, it is
all of it. -/
theorem C78_sent (W : World) (c0 : Conn) (h : Conn.new cfg = .ok c0) (calls : List Call) :
    let c := (c0.run cfg W calls).1
    let out := (c0.run cfg W calls).2
    sentOf c.io.common.log <+: written out ∧
    (∀ m r, Ev.pushOut m r ∈ c.io.common.log → m.payload.length ≤ c0.io.common.fragmenter.maxFrag) ∧
    (∀ n w r, (c.step cfg W (.process n)).2 = .io w r → (c.step cfg W (.process n)).1.isHandshaking = false →
      sentOf (c.step cfg W (.process n)).1.io.common.log = written out) := by
  intro c out
  obtain ⟨R, hf, -⟩ := whole_run W h calls
  refine ⟨hf.weaken.sent, hf.small, fun n w r hp hh => ?_⟩
  have hs : (c.step cfg W (.process n)).1.io.common.maySend = true := by
    simp only [Conn.isHandshaking, Bool.not_eq_false', Bool.and_eq_true] at hh
    exact hh.1
  have ht := process_tidy W c0 h calls n w r hp hs
  have hw : IoFlow (fluxOf c0.io.common.fragmenter (c0.run cfg W (calls ++ [.process n])).2) (wireIn _)
    (isOk (c0.run cfg W (calls ++ [.process n])).1.state) (c0.run cfg W (calls ++ [.process n])).1.io := whole_run W h _
  rw [run_snoc] at hw
  obtain ⟨R', hf', -⟩ := hw
  have hok : isOk (c.step cfg W (.process n)).1.state = true := by
    have hstep : c.step cfg W (.process n) = callProcess cfg W n c := rfl
    rw [hstep] at hp ⊢
    revert hp
    unfold callProcess
    cases c.state with
    | error e => intro hp; cases hp
    | ok s =>
      simp only
      rcases processBody cfg W n s c.io with ⟨io', r⟩
      cases r with
      | ok a =>
        cases a with
        | ok s => exact fun _ => rfl
        | error e => intro hp; cases hp
      | err e => intro hp; cases hp
      | dropped => intro hp; cases hp
      | panicked => intro hp; cases hp
  have hsent := hf'.sent
  rw [show isOk _ = true from hok] at hsent
  simp only [if_true] at hsent
  rw [show List.flatten _ = [] from congrArg List.flatten ht, List.append_nil] at hsent
  rw [show sentOf _ = _ from hsent]
  show written (out ++ [(.process n, _)]) = written out
  simp [written]

theorem encode_eq_frameBytes (m : OpaqueMessage) : m.encode = frameBytes m := by
  have h1 : codecU16.encode (UInt16.ofNat m.payload.length) = beBytes 2 m.payload.length := by
    show beBytes 2 (UInt16.ofNat m.payload.length).toNat = _
    rw [← beBytes_mod 2 m.payload.length]
    congr 1
  unfold OpaqueMessage.encode frameBytes
  rw [h1]
  rfl

theorem wireOf_log {f : Fragmenter} (hf : FragOk f) (log : List Ev) : WireOf f.maxFrag log (log.flatMap (Ev.wire f)) := by
  induction log using List.reverseRecOn with
  | nil => exact .nil
  | append_singleton log e ih =>
    rw [flatMap_snoc]
    have hframes : ∀ l : List OpaqueMessage, l.flatMap OpaqueMessage.encode = (l.map frameBytes).flatten := by
      intro l
      rw [List.flatMap_def]
      congr 1
      exact List.map_congr_left fun m _ => encode_eq_frameBytes m
    have other : (∀ m, e ≠ .clear m) → (∀ m, e ≠ .nextOut (.ok (some m))) →
        WireOf f.maxFrag (log ++ [e]) (log.flatMap (Ev.wire f) ++ e.wire f) := by
      intro h1 h2
      have : e.wire f = [] := by
        unfold Ev.wire
        split
        · exact absurd rfl (h1 _)
        · exact absurd rfl (h2 _)
        · rfl
      rw [this, List.append_nil]
      exact .other ih h1 h2
    cases e with
    | clear m =>
      show WireOf _ _ (_ ++ (f.fragment (plainOf (headerVersion m) m)).flatMap OpaqueMessage.encode)
      rw [hframes]
      obtain ⟨size, hsize⟩ := hf
      obtain ⟨p1, p2, p3, p4⟩ := C38_fragment size f hsize (plainOf (headerVersion m) m)
      exact .clear ih ⟨p1, fun x hx => ⟨(p2 x hx).1, (p2 x hx).2.1, (p2 x hx).2.2.1⟩, p3, p4⟩
    | nextOut r =>
      cases r with
      | ok a =>
        cases a with
        | some m =>
          show WireOf _ _ (_ ++ m.encode)
          rw [encode_eq_frameBytes]
          exact .record ih
        | none => exact other (by simp) (by simp)
      | _ => exact other (by simp) (by simp)
    | _ => exact other (by simp) (by simp)

/-- C78.  The bytes that were written to the server and those that wait are the messages that the client sent unencrypted, cut into
records of at most the configured size, and the leader's records, in order. -/
theorem C78_wire (W : World) (c0 : Conn) (h : Conn.new cfg = .ok c0) (calls : List Call) :
    let c := (c0.run cfg W calls).1
    let out := (c0.run cfg W calls).2
    WireOf c0.io.common.fragmenter.maxFrag c.io.common.log (wireOut out ++ c.io.common.sendableTls.chunks.flatten) := by
  intro c out
  obtain ⟨R, hf, -⟩ := whole_run W h calls
  have hw : c.io.common.log.flatMap (Ev.wire c0.io.common.fragmenter) = wireOut out ++ c.io.common.sendableTls.chunks.flatten := hf.wire
  rw [← hw]
  exact wireOf_log (whole_new h).1 _

/-- In the demonstration data go both ways, in several records. -/
example : let demoRun := demoConn.run demoCfg demoWorld (demoCalls ++ [.writeTls 10000]);
     (readOut demoRun.2, (heardOf demoRun.1.io.common.log).flatMap dataOf, written demoRun.2, sentOf demoRun.1.io.common.log) =
      ([0x68, 0x69], [0x68, 0x69], [1, 2, 3], [1, 2, 3]) ∧
    (recordsOf demoRun.1.io.common.log).length = 4 ∧ (wireOut demoRun.2).length = 201 := by
  decide +kernel

/-! ## C79: the epochs -/

/-- C79.  No record is taken as plaintext after the server's change of cipher spec, and none is given to the leader before it; nothing
is sent unencrypted once the leader has the server's key, and nothing is given to the leader to send before. -/
theorem C79_epochs (W : World) (c0 : Conn) (h : Conn.new cfg = .ok c0) (calls : List Call) (pre post : List Ev) (e : Ev)
    (hl : (c0.run cfg W calls).1.io.common.log = pre ++ e :: post) :
    (∀ m, e = .plain m → Ev.handle .changeCipherSpec ∉ pre) ∧
    (∀ m r, e = .pushIn m r → Ev.handle .changeCipherSpec ∈ pre) ∧
    (∀ m, e = .clear m → ∀ hs, Ev.prepare hs (.ok ()) ∉ pre) ∧
    (∀ m r, e = .pushOut m r → ∃ hs, Ev.prepare hs (.ok ()) ∈ pre) := by
  have ha := (run_inv W c0 h calls).weak.good.at hl
  have hsub : ∀ {x : Ev}, x ∈ significant pre → x ∈ pre := fun hx => List.mem_of_mem_filter hx
  refine ⟨?_, ?_, ?_, ?_⟩
  · rintro m rfl
    exact ha
  · rintro m r rfl
    obtain ⟨d, -, hp⟩ := ha
    refine hsub (hp.subset ?_)
    simp [Session.upToServerCcs]
  · rintro m rfl
    exact ha.1
  · rintro m r rfl
    obtain ⟨-, d, -, hp⟩ := ha
    refine ⟨d.serverData, hsub (hp.subset ?_)⟩
    simp [Session.upToPrepared]

/-- In the example a record goes to the leader after the change of cipher spec, and records come before it. -/
example : ((demoConn.run demoCfg demoWorld demoCalls).1.io.common.log.filter fun
    | .plain _ => true
    | .pushIn _ _ => true
    | .handle .changeCipherSpec => true
    | _ => false).map (fun
    | .plain m => m.payload.length
    | .pushIn m _ => 1000 + m.payload.length
    | _ => 0) = [97, 1, 0, 1016, 1002] := by
  decide +kernel

/-! ## C80: errors are final -/

theorem step_failed (W : World) (c : Conn) (e : CErr) (h : c.state = .error e) (k : Call) :
    (c.step cfg W k).1.state = .error e ∧
    (∀ n, k = .process n → c.step cfg W k = (c, .err e)) ∧ (k = .start → c.step cfg W k = (c, .err e)) := by
  have hs : callStart cfg W c = (c, .err e) := by
    unfold callStart
    rw [h]
  have hp : ∀ n, callProcess cfg W n c = (c, .err e) := by
    intro n
    unfold callProcess
    rw [h]
  cases k with
  | start => exact ⟨by rw [show c.step cfg W .start = _ from hs]; exact h, by simp, fun _ => hs⟩
  | process n => exact ⟨by rw [show c.step cfg W (.process n) = _ from hp n]; exact h, fun m hm => by cases hm; exact hp n, by simp⟩
  | writePlaintext buf =>
    refine ⟨?_, by simp, by simp⟩
    show (callWrite buf c).1.state = _
    unfold callWrite
    split <;> exact h
  | _ => exact ⟨h, by simp, by simp⟩

/-- What `process` fails with when it does not keep the error. -/
def Passing (e : CErr) : Prop := e = .corruptMessage ∨ ∃ code, e = .backend code

/-- `f` fails only with such errors. -/
def FailsPassing {σ α : Type} (f : M σ α) : Prop := ∀ s, match f s with
  | (_, .err e) => Passing e
  | _ => True

theorem FailsPassing.bind {σ α β : Type} {f : M σ α} {g : α → M σ β} (hf : FailsPassing f) (hg : ∀ a, FailsPassing (g a)) :
    FailsPassing (f >>= g) := by
  intro s
  have h1 := hf s
  show match M.bind f g s with
    | (_, .err e) => Passing e
    | _ => True
  unfold M.bind
  revert h1
  rcases f s with ⟨s1, r⟩
  cases r with
  | ok a => exact fun _ => hg a s1
  | err e => exact id
  | dropped => exact id
  | panicked => exact id

theorem FailsPassing.pure {σ α : Type} {a : α} : FailsPassing (Pure.pure a : M σ α) := fun _ => trivial

theorem FailsPassing.get {σ β : Type} {g : σ → M σ β} (hg : ∀ a, FailsPassing (g a)) : FailsPassing (M.get >>= g) := fun s => hg s s

theorem FailsPassing.ask {α : Type} {r : List Ev → Reply α} {ev : Reply α → Ev} : FailsPassing (Tlsn.Client.ask r ev) := by
  intro c
  unfold Tlsn.Client.ask
  simp only
  cases r c.log with
  | failed code => exact .inr ⟨code, rfl⟩
  | _ => trivial

theorem FailsPassing.lift {α : Type} {f : M Common α} (h : FailsPassing f) : FailsPassing (lift f) := by
  intro io
  have := h io.common
  unfold Tlsn.Client.lift
  revert this
  rcases f io.common with ⟨c, r⟩
  cases r <;> exact id

theorem fails_pushAll (W : World) (ms : List OpaqueMessage) : FailsPassing (pushAll W ms) := by
  induction ms with
  | nil => exact .pure
  | cons m ms ih => exact .bind .ask fun _ => ih

theorem fails_flushLoop (W : World) (n : Nat) : FailsPassing (flushLoop W n) := by
  induction n with
  | zero => exact .pure
  | succ n ih =>
    refine .get fun c => ?_
    split
    · exact .pure
    · exact .bind (fun _ => trivial) fun _ => .bind (.get fun _ => fails_pushAll W _) fun _ => ih

theorem fails_flush (W : World) : FailsPassing (flushPlaintext W) := by
  refine .get fun c => ?_
  split
  · exact fails_flushLoop W _
  · exact .pure

theorem fails_catching {α : Type} (f : M Io α) : FailsPassing (catching f) := by
  intro io
  unfold catching
  rcases f io with ⟨io1, r⟩
  cases r <;> trivial

theorem fails_frameLoop (W : World) (frames : List OpaqueMessage) (s : HState) : FailsPassing (frameLoop cfg W frames s) := by
  induction frames generalizing s with
  | nil => exact .pure
  | cons m ms ih =>
    refine .bind (fun _ => trivial) fun _ => .get fun io => ?_
    split
    · exact .bind (.lift .ask) fun _ => ih s
    · refine .bind (fun _ => trivial) fun _ => .bind (fails_catching _) fun r => ?_
      cases r with
      | ok s => exact ih s
      | error e => exact .pure

theorem fails_drainIn (W : World) (n : Nat) (s : HState) : FailsPassing (drainIn cfg W n s) := by
  induction n generalizing s with
  | zero => exact fun _ => trivial
  | succ n ih =>
    refine .bind (.lift .ask) fun r => ?_
    cases r with
    | none => exact .pure
    | some m =>
      refine .bind (fails_catching _) fun r => ?_
      cases r with
      | ok s => exact ih s
      | error e => exact .pure

theorem fails_drainOut (W : World) (n : Nat) : FailsPassing (drainOut W n) := by
  induction n with
  | zero => exact fun _ => trivial
  | succ n ih =>
    refine .bind .ask fun r => ?_
    cases r with
    | none => exact .pure
    | some m => exact .bind (fun _ => trivial) fun _ => ih

theorem fails_processBody (W : World) (n : Nat) (s : HState) : FailsPassing (processBody cfg W n s) := by
  refine .get fun io => ?_
  split
  · exact fun _ => .inl rfl
  · refine .bind (.lift (fails_flush W)) fun _ => .bind (fails_frameLoop W _ s) fun r => ?_
    cases r with
    | error e => exact .pure
    | ok s =>
      refine .bind (.lift .ask) fun _ => .bind (fails_drainIn W n s) fun r => ?_
      cases r with
      | error e => exact .pure
      | ok s => exact .bind (.lift (fails_drainOut W n)) fun _ => .pure

/-- The state after `process`. -/
theorem process_state (W : World) (c : Conn) (n : Nat) :
    (∃ w r, (c.step cfg W (.process n)).2 = .io w r) ∨
    (∃ e, (c.step cfg W (.process n)).1.state = .error e ∧ (e = .handshakeNotComplete ∨ (c.step cfg W (.process n)).2 = .err e) ∧
      ∀ e', (c.step cfg W (.process n)).2 = .err e' → ¬ Passing e' → e' = e) := by
  show (∃ w r, (callProcess cfg W n c).2 = .io w r) ∨ (∃ e, (callProcess cfg W n c).1.state = .error e ∧
    (e = .handshakeNotComplete ∨ (callProcess cfg W n c).2 = .err e) ∧ ∀ e', (callProcess cfg W n c).2 = .err e' → ¬ Passing e' → e' = e)
  unfold callProcess
  cases hs : c.state with
  | error e => exact .inr ⟨e, hs, .inr rfl, fun e' h _ => by cases h; rfl⟩
  | ok s =>
    have hp := fails_processBody (cfg := cfg) W n s c.io
    simp only
    revert hp
    rcases processBody cfg W n s c.io with ⟨io', r⟩
    cases r with
    | ok a =>
      cases a with
      | ok s => exact fun _ => .inl ⟨_, _, rfl⟩
      | error e => exact fun _ => .inr ⟨e, rfl, .inr rfl, fun e' h _ => by cases h; rfl⟩
    | err e => exact fun hp => .inr ⟨_, rfl, .inl rfl, fun e' h hn => by cases h; exact absurd hp hn⟩
    | dropped => exact fun _ => .inr ⟨_, rfl, .inl rfl, fun e' h => by cases h⟩
    | panicked => exact fun _ => .inr ⟨_, rfl, .inl rfl, fun e' h => by cases h⟩

/-- C80.  The documentation says: errors are fatal, and "future calls after an error will do no new work and will return the same
error".  Once `process` has not succeeded (an error, a dropped future, a panic), it never succeeds again and does no work: there is one
error that all later calls return, and they leave the connection as it is.  That error is the first one unless the first one came
from the leader or from a corrupt record; then it may be `HandshakeNotComplete`, see `C80_same_error_false`. -/
theorem C80_final_partial (W : World) (c0 : Conn) (calls : List Call) (n : Nat)
    (hfail : ∀ w r, ((c0.run cfg W calls).1.step cfg W (.process n)).2 ≠ .io w r) :
    ∃ e, (∀ more k, (∃ m, k = .process m) ∨ k = .start →
      (c0.run cfg W (calls ++ [.process n] ++ more)).1.step cfg W k = ((c0.run cfg W (calls ++ [.process n] ++ more)).1, .err e)) ∧
    (e = .handshakeNotComplete ∨ ((c0.run cfg W calls).1.step cfg W (.process n)).2 = .err e) ∧
    ∀ e', ((c0.run cfg W calls).1.step cfg W (.process n)).2 = .err e' → e' ≠ .corruptMessage → (∀ code, e' ≠ .backend code) → e' = e := by
  rcases process_state (cfg := cfg) W (c0.run cfg W calls).1 n with ⟨w, r, h⟩ | ⟨e, h1, h2, h3⟩
  · exact absurd h (hfail w r)
  · refine ⟨e, fun more k hk => ?_, h2, fun e' he hn1 hn2 => h3 e' he fun hp => ?_⟩
    · have hst : (c0.run cfg W (calls ++ [.process n] ++ more)).1.state = .error e := by
        induction more using List.reverseRecOn with
        | nil => rw [List.append_nil, run_snoc]; exact h1
        | append_singleton more k ih =>
          rw [← List.append_assoc, run_snoc]
          exact (step_failed W _ e ih k).1
      have := step_failed (cfg := cfg) W _ e hst k
      rcases hk with ⟨m, rfl⟩ | rfl
      · exact this.2.1 m rfl
      · exact this.2.2 rfl
    · rcases hp with hp | ⟨code, hp⟩
      · exact hn1 hp
      · exact hn2 code hp

/-- The error of a leader that fails is not kept: the next call returns `HandshakeNotComplete`. -/
theorem C80_same_error_false : ∃ (cfg : ClientCfg) (W : World) (c0 : Conn), Conn.new cfg = .ok c0 ∧
    ((c0.run cfg W [.start, .process 1, .process 1]).2.map (·.2)) = [.ok, .err (.backend 7), .err .handshakeNotComplete] :=
  ⟨demoCfg, { demoWorld with flush := fun _ => .failed 7 }, demoConn, rfl, by decide +kernel⟩

/-- An error from the server's messages is kept. -/
example : ((demoConn.run demoCfg demoWorld [.start, .readTls [0x16, 3, 3, 0, 4, 14, 0, 0, 0], .process 1, .process 1, .start]).2.map
    (·.2)) = [.ok, .count 9, .err (.inappropriateHs 14), .err (.inappropriateHs 14), .err (.inappropriateHs 14)] := by
  decide +kernel

/-! ## C81: the calls to the leader -/

/-- The events that a predicate selects. -/
def eventsOf {α : Type} (f : Ev → Option α) (log : List Ev) : List α := log.filterMap f

def askedRandom : Ev → Option Unit
  | .random _ => some ()
  | _ => none

def askedShare : Ev → Option Unit
  | .keyShare _ => some ()
  | _ => none

def askedPrepare : Ev → Option HandshakeData
  | .prepare hs _ => some hs
  | _ => none

def askedClientVd : Ev → Option Bytes
  | .clientVd h _ => some h
  | _ => none

def askedServerVd : Ev → Option Bytes
  | .serverVd h _ => some h
  | _ => none

def askedStart : Ev → Option Unit
  | .startTraffic _ => some ()
  | _ => none

theorem once_of {α : Type} (f : Ev → Option α) {log : List Ev} (hsig : ∀ e, (f e).isSome → e.significant = true)
    (hone : ∀ pre e post, log = pre ++ e :: post → (f e).isSome → eventsOf f (significant pre) = []) :
    (eventsOf f log).length ≤ 1 := by
  induction log using List.reverseRecOn with
  | nil => simp [eventsOf]
  | append_singleton log e ih =>
    have ih := ih fun pre x post hl hx => hone pre x (post ++ [e]) (by rw [hl]; simp) hx
    unfold eventsOf at ih ⊢
    rw [List.filterMap_append, List.length_append]
    cases hf : f e with
    | none => simpa [hf] using ih
    | some a =>
      have h0 := hone log e [] rfl (by rw [hf]; rfl)
      have : log.filterMap f = [] := by
        rw [List.filterMap_eq_nil_iff]
        intro x hx
        by_contra hne
        have hs := hsig x (Option.isSome_iff_ne_none.2 hne)
        unfold eventsOf at h0
        rw [List.filterMap_eq_nil_iff] at h0
        exact hne (h0 x (List.mem_filter.2 ⟨hx, hs⟩))
      rw [this]
      simp [hf]

theorem none_of_prefix {α : Type} (f : Ev → Option α) {a b : List Ev} (h : eventsOf f b = []) (hp : a <+: b) : eventsOf f a = [] := by
  obtain ⟨t, rfl⟩ := hp
  unfold eventsOf at h ⊢
  rw [List.filterMap_append] at h
  exact (List.append_eq_nil_iff.1 h).1

theorem eventsOf_append {α : Type} (f : Ev → Option α) (a b : List Ev) : eventsOf f (a ++ b) = eventsOf f a ++ eventsOf f b :=
  List.filterMap_append

/-- None of the events of the server's messages are calls to the leader. -/
theorem eventsOf_handles {α : Type} (f : Ev → Option α) (hf : ∀ m, f (.handle m) = none) (d : Session) :
    eventsOf f (d.status.toList.map fun s => .handle (.handshake ⟨s.1, .certificateStatus s.2⟩)) = [] ∧
    eventsOf f (d.request.toList.map fun r => .handle (.handshake ⟨r.1, .certificateRequest r.2⟩)) = [] := by
  unfold eventsOf
  cases d.status <;> cases d.request <;> simp [hf]

theorem eventsOf_ccs {α : Type} (f : Ev → Option α) (hs : ∀ a b c, f (.sign a b c) = none) (hc : ∀ m, f (.clear m) = none)
    (d : Session) (h : eventsOf f (d.upToClientKx cfg) = []) : eventsOf f (d.upToCcs cfg) = [] := by
  unfold Session.upToCcs
  rw [eventsOf_append, eventsOf_append, h]
  unfold eventsOf
  split <;> simp [hs, hc]

theorem eventsOf_cert {α : Type} (f : Ev → Option α) (hc : ∀ m, f (.clear m) = none) (d : Session) :
    eventsOf f (if d.request.isSome then [.clear (.handshake ⟨0x0b, .certificate ((d.identity cfg).elim [] (·.1))⟩)] else []) = [] := by
  unfold eventsOf
  split <;> simp [hc]

/-- C81.  The leader is asked for its random, its key share and the two verify data, is told about the server and is told to start at
most once each, even if a call has failed; it is told what the server has sent and signed, and the hashes are of all handshake
messages so far. -/
theorem C81_once (W : World) (c0 : Conn) (h : Conn.new cfg = .ok c0) (calls : List Call) :
    let log := (c0.run cfg W calls).1.io.common.log
    (eventsOf askedRandom log).length ≤ 1 ∧ (eventsOf askedShare log).length ≤ 1 ∧ (eventsOf askedPrepare log).length ≤ 1 ∧
    (eventsOf askedClientVd log).length ≤ 1 ∧ (eventsOf askedServerVd log).length ≤ 1 ∧ (eventsOf askedStart log).length ≤ 1 ∧
    (∀ hs ∈ eventsOf askedPrepare log, ∃ d : Session, d.ServerOk cfg ∧ d.upToCcs cfg <+: significant log ∧ hs = d.serverData) ∧
    (∀ x ∈ eventsOf askedClientVd log, ∃ d : Session, d.ServerOk cfg ∧ d.upToPrepared cfg <+: significant log ∧
      x = cfg.hash (transcriptOf (d.upToPrepared cfg))) ∧
    (∀ x ∈ eventsOf askedServerVd log, ∃ d : Session, d.ServerOk cfg ∧ d.upToServerFinished cfg <+: significant log ∧
      x = cfg.hash (transcriptOf (d.upToServerCcs cfg))) := by
  intro log
  have hg := (run_inv W c0 h calls).weak.good
  have hmono : ∀ {pre post : List Ev} {e : Ev}, log = pre ++ e :: post → significant pre <+: significant log := by
    intro pre post e hl
    rw [hl, significant_append]
    exact List.prefix_append _ _
  refine ⟨once_of _ ?_ ?_, once_of _ ?_ ?_, once_of _ ?_ ?_, once_of _ ?_ ?_, once_of _ ?_ ?_, once_of _ ?_ ?_, ?_, ?_, ?_⟩
  · intro e he
    cases e <;> first | rfl | simp [askedRandom] at he
  · intro pre e post hl he
    cases e <;> try simp [askedRandom] at he
    obtain ⟨sid, hs⟩ := hg.at hl
    rw [hs]
    rfl
  · intro e he
    cases e <;> first | rfl | simp [askedShare] at he
  · intro pre e post hl he
    cases e <;> try simp [askedShare] at he
    obtain ⟨d, -, -, -, -, -, hs⟩ := hg.at hl
    rw [hs]
    have h1 := eventsOf_handles askedShare (fun _ => rfl) d
    have h2 := eventsOf_cert (cfg := cfg) askedShare (fun _ => rfl) d
    simp only [Session.upToClientCert, Session.upToDone, Session.upToRequest, Session.upToKx, Session.upToStatus,
      Session.upToCertificate, Session.upToServerHello, Session.hello, eventsOf_append, h1.1, h1.2, h2]
    rfl
  · intro e he
    cases e <;> first | rfl | simp [askedPrepare] at he
  · intro pre e post hl he
    cases e <;> try simp [askedPrepare] at he
    obtain ⟨d, -, hs, -⟩ := hg.at hl
    rw [hs]
    have h1 := eventsOf_handles askedPrepare (fun _ => rfl) d
    have h2 := eventsOf_cert (cfg := cfg) askedPrepare (fun _ => rfl) d
    have h3 : eventsOf askedPrepare (d.upToClientKx cfg) = [] := by
      simp only [Session.upToClientKx, Session.upToClientCert, Session.upToDone, Session.upToRequest, Session.upToKx,
        Session.upToStatus, Session.upToCertificate, Session.upToServerHello, Session.hello, eventsOf_append, h1.1, h1.2, h2]
      rfl
    have h4 := eventsOf_ccs (cfg := cfg) askedPrepare (fun _ _ _ => rfl) (fun _ => rfl) d h3
    exact h4
  · intro e he
    cases e <;> first | rfl | simp [askedClientVd] at he
  · intro pre e post hl he
    cases e <;> try simp [askedClientVd] at he
    obtain ⟨d, -, hs, -⟩ := hg.at hl
    rw [hs]
    have h1 := eventsOf_handles askedClientVd (fun _ => rfl) d
    have h2 := eventsOf_cert (cfg := cfg) askedClientVd (fun _ => rfl) d
    have h3 : eventsOf askedClientVd (d.upToClientKx cfg) = [] := by
      simp only [Session.upToClientKx, Session.upToClientCert, Session.upToDone, Session.upToRequest, Session.upToKx,
        Session.upToStatus, Session.upToCertificate, Session.upToServerHello, Session.hello, eventsOf_append, h1.1, h1.2, h2]
      rfl
    have h4 := eventsOf_ccs (cfg := cfg) askedClientVd (fun _ _ _ => rfl) (fun _ => rfl) d h3
    simp only [Session.upToPrepared, eventsOf_append, h4]
    rfl
  · intro e he
    cases e <;> first | rfl | simp [askedServerVd] at he
  · intro pre e post hl he
    cases e <;> try simp [askedServerVd] at he
    obtain ⟨d, -, hs, -⟩ := hg.at hl
    rw [hs]
    have h1 := eventsOf_handles askedServerVd (fun _ => rfl) d
    have h2 := eventsOf_cert (cfg := cfg) askedServerVd (fun _ => rfl) d
    have h3 : eventsOf askedServerVd (d.upToClientKx cfg) = [] := by
      simp only [Session.upToClientKx, Session.upToClientCert, Session.upToDone, Session.upToRequest, Session.upToKx,
        Session.upToStatus, Session.upToCertificate, Session.upToServerHello, Session.hello, eventsOf_append, h1.1, h1.2, h2]
      rfl
    have h4 := eventsOf_ccs (cfg := cfg) askedServerVd (fun _ _ _ => rfl) (fun _ => rfl) d h3
    simp only [Session.upToServerFinished, Session.upToServerCcs, Session.upToFinished, Session.upToPrepared, eventsOf_append, h4]
    rfl
  · intro e he
    cases e <;> first | rfl | simp [askedStart] at he
  · intro pre e post hl he
    cases e <;> try simp [askedStart] at he
    obtain ⟨d, -, hs⟩ := hg.at hl
    rw [hs]
    have h1 := eventsOf_handles askedStart (fun _ => rfl) d
    have h2 := eventsOf_cert (cfg := cfg) askedStart (fun _ => rfl) d
    have h3 : eventsOf askedStart (d.upToClientKx cfg) = [] := by
      simp only [Session.upToClientKx, Session.upToClientCert, Session.upToDone, Session.upToRequest, Session.upToKx,
        Session.upToStatus, Session.upToCertificate, Session.upToServerHello, Session.hello, eventsOf_append, h1.1, h1.2, h2]
      rfl
    have h4 := eventsOf_ccs (cfg := cfg) askedStart (fun _ _ _ => rfl) (fun _ => rfl) d h3
    simp only [Session.upToVerified, Session.upToServerFinished, Session.upToServerCcs, Session.upToFinished, Session.upToPrepared, eventsOf_append, h4]
    rfl
  · intro x hx
    obtain ⟨e, he, hx⟩ := List.mem_filterMap.1 hx
    obtain ⟨pre, post, hl⟩ := List.append_of_mem he
    cases e <;> simp [askedPrepare] at hx
    obtain ⟨d, h1, h2, h3⟩ := hg.at hl
    exact ⟨d, h1, h2 ▸ hmono hl, by rw [← hx, h3]⟩
  · intro x hx
    obtain ⟨e, he, hx⟩ := List.mem_filterMap.1 hx
    obtain ⟨pre, post, hl⟩ := List.append_of_mem he
    cases e <;> simp [askedClientVd] at hx
    obtain ⟨d, h1, h2, h3⟩ := hg.at hl
    exact ⟨d, h1, h2 ▸ hmono hl, by rw [← hx, h3]⟩
  · intro x hx
    obtain ⟨e, he, hx⟩ := List.mem_filterMap.1 hx
    obtain ⟨pre, post, hl⟩ := List.append_of_mem he
    cases e <;> simp [askedServerVd] at hx
    obtain ⟨d, h1, h2, h3⟩ := hg.at hl
    exact ⟨d, h1, h2 ▸ hmono hl, by rw [← hx, h3]⟩

/-- C81.  So the assumption about the caller of the leader under which C69 holds is met by this client: if the leader's calls for the
verify data are those of a connection, there is at most one of each. -/
theorem C81_leader (W : World) (c0 : Conn) (h : Conn.new cfg = .ok c0) (calls : List Call) (lc : List (Mpc.LCall × Mpc.World))
    (hc : Mpc.clientVdCalls lc = eventsOf askedClientVd (c0.run cfg W calls).1.io.common.log)
    (hs : Mpc.serverVdCalls lc = eventsOf askedServerVd (c0.run cfg W calls).1.io.common.log) : Mpc.VdOnce lc := by
  obtain ⟨-, -, -, h4, h5, -⟩ := C81_once W c0 h calls
  exact ⟨hc ▸ h4, hs ▸ h5⟩

example : eventsOf askedClientVd (demoConn.run demoCfg demoWorld demoCalls).1.io.common.log ≠ [] ∧
    eventsOf askedServerVd (demoConn.run demoCfg demoWorld demoCalls).1.io.common.log ≠ [] ∧
    (eventsOf askedPrepare (demoConn.run demoCfg demoWorld demoCalls).1.io.common.log).map (·.key) = [⟨0x17, [4, 8, 9]⟩] := by
  decide +kernel

/-! ## C82: the end of the connection -/

/-- C82.  After the handshake the connection wants to read unless data is waiting for the caller or the server has said that it closes
the connection. -/
theorem C82_wants_read (W : World) (c0 : Conn) (h : Conn.new cfg = .ok c0) (calls : List Call) :
    let c := (c0.run cfg W calls).1
    c.isHandshaking = false → c.wantsRead = false →
      0 < c.io.common.received.len ∨ ∃ m ∈ heardOf c.io.common.log, IsClose m := by
  intro c hh hw
  obtain ⟨R, hf, -⟩ := whole_run W h calls
  simp only [Conn.isHandshaking, Bool.not_eq_false', Bool.and_eq_true] at hh
  simp only [Conn.wantsRead, hh.1, Bool.true_or, Bool.and_true, Bool.and_eq_false_iff, Bool.not_eq_false'] at hw
  rcases hw with hw | hw
  · refine .inl ?_
    rw [vecBuf_len]
    unfold VecBuf.isEmpty at hw
    have hch := hf.chunks
    cases hcs : c.io.common.received.chunks with
    | nil => rw [hcs] at hw; simp at hw
    | cons x xs =>
      have := hch x (by rw [show (c0.run cfg W calls).1.io.common.received.chunks = _ from hcs]; simp)
      cases x with
      | nil => exact absurd rfl this
      | cons b x => simp
  · exact .inr (hf.closed hw)

/-- The alert need not be from the server: one that arrives unencrypted during the handshake counts after it. -/
theorem C82_unauthenticated : ∃ (cfg : ClientCfg) (W : World) (c0 : Conn) (calls : List Call), Conn.new cfg = .ok c0 ∧
    (c0.run cfg W calls).1.isHandshaking = false ∧ (c0.run cfg W calls).1.wantsRead = false ∧
    (c0.run cfg W calls).1.io.common.received.len = 0 ∧
    ∀ r, Ev.nextIn r ∈ (c0.run cfg W calls).1.io.common.log → ∀ m, r = .ok (some m) → ¬ IsClose m := by
  refine ⟨demoCfg, demoWorld, demoConn, [.start, .readTls [0x15, 3, 3, 0, 2, 1, 0], .readTls demoFlight, .process 10,
    .readTls demoSecond, .process 10, .readPlaintext 2], rfl, by decide +kernel, by decide +kernel, by decide +kernel, ?_⟩
  have key : ∀ e ∈ ((demoConn.run demoCfg demoWorld [.start, .readTls [0x15, 3, 3, 0, 2, 1, 0], .readTls demoFlight, .process 10,
    .readTls demoSecond, .process 10, .readPlaintext 2]).1.io.common.log), ∀ m, e = .nextIn (.ok (some m)) → m.typ ≠ .alert := by
    have hb : ((demoConn.run demoCfg demoWorld [.start, .readTls [0x15, 3, 3, 0, 2, 1, 0], .readTls demoFlight, .process 10,
      .readTls demoSecond, .process 10, .readPlaintext 2]).1.io.common.log.all fun e => match e with
        | .nextIn (.ok (some m)) => !decide (m.typ = .alert)
        | _ => true) = true := by decide +kernel
    intro e he m hm ht
    have := List.all_eq_true.1 hb e he
    rw [hm] at this
    simp [ht] at this
  intro r hr m hm hcl
  exact key _ hr m (by rw [hm]) hcl.1

end Tlsn.Client
