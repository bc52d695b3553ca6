import Verif.Drive.Control

/-! # Cases that meet the hypotheses of the theorems -/

namespace Tlsn.Drive

open Tlsn.Client

theorem eofLast_snoc (l : List Act) (a : Act) (h : ∀ e, Act.poll e ∈ l → e.socketRead ≠ .eof) : EofLast (l ++ [a]) := by
  intro pre e post e' hl he
  rcases List.eq_nil_or_concat post with rfl | ⟨post', x, rfl⟩
  · intro hm; cases hm
  · have : l = pre ++ .poll e :: post' := by
      have h1 : l ++ [a] = (pre ++ .poll e :: post') ++ [x] := by rw [hl]; simp
      exact (List.append_inj' h1 rfl).1
    exact absurd he (h e (by rw [this]; simp))

theorem demoEnv_read (s : SockRead) : (demoEnv s).socketRead = s := rfl

theorem demoClose_noEof : ∀ e, Act.poll e ∈ demoClose → e.socketRead ≠ .eof := by
  intro e he
  simp only [demoClose, demoOpen, List.cons_append, List.nil_append, List.mem_cons, Act.poll.injEq, reduceCtorEq, false_or, or_false,
    List.not_mem_nil] at he
  rcases he with rfl | rfl | rfl | rfl | rfl | rfl | rfl <;> simp [demoEnv_read]

/-- C84, C85: a session in which the application writes three bytes, reads two and closes, and the server closes. -/
example : Conn.new demoCfg = .ok demoConn ∧
    ((Driver.new demoConn true).run demoCfg demoOut demoActs).1.appRead = [0x68, 0x69] ∧
    sentOf ((Driver.new demoConn true).run demoCfg demoOut demoActs).1.client.inner.conn.io.common.log = [1, 2, 3] ∧
    notes ((Driver.new demoConn true).run demoCfg demoOut demoActs).1.client.inner.trace = 1 := by
  refine ⟨rfl, ?_, ?_, ?_⟩ <;> decide +kernel

/-- C85: and the future returns the committed prover. -/
example : EofLast (demoClose ++ [.poll (demoEnv .eof)]) ∧
    (((Driver.new demoConn true).run demoCfg demoOut demoClose).1.step demoCfg demoOut (.poll (demoEnv .eof))).2 = .committed :=
  ⟨eofLast_snoc _ _ demoClose_noEof, by decide +kernel⟩

/-- C85: polled again. -/
example : ((Driver.new demoConn true).run demoCfg demoOut (demoActs ++ [.poll (demoEnv .pending)])).2[10]?.map (·.2) = some .committed ∧
    ((Driver.new demoConn true).run demoCfg demoOut (demoActs ++ [.poll (demoEnv .pending)])).2[11]?.map (·.2) = some (.err .polledAgain) := by
  constructor <;> decide +kernel

/-- C85: a socket error ends the future, and `is_terminated` is false. -/
example : (((Driver.new demoConn true).run demoCfg demoOut demoOpen).1.step demoCfg demoOut (.poll (demoEnv .failed))).2 = .err .io ∧
    (((Driver.new demoConn true).run demoCfg demoOut demoOpen).1.step demoCfg demoOut (.poll (demoEnv .failed))).1.isTerminated = false ∧
    ((Driver.new demoConn true).run demoCfg demoOut demoActs).1.isTerminated = true := by
  refine ⟨?_, ?_, ?_⟩ <;> decide +kernel

/-- The server's closing alert, then a byte. -/
def demoTrailing : List Act := demoOpen ++ [.poll (demoEnv (.data [0x15, 3, 3, 0, 2, 1, 0])), .poll (demoEnv (.data [0]))]

/-- C86: the server sends its closing alert and another byte, then closes the connection; the futures are always ready. -/
example : EofLast demoTrailing ∧
    ((Driver.new demoConn true).run demoCfg demoOut demoTrailing).1.client.inner.conn.io.common.closeNotify = true ∧
    ((Driver.new demoConn true).run demoCfg demoOut demoTrailing).1.fromServer ≠ [] ∧
    (((Driver.new demoConn true).run demoCfg demoOut demoTrailing).1.run demoCfg demoOut
      [.poll (demoEnv .eof), .poll (demoEnv .eof), .poll (demoEnv .eof)]).2.map (·.2) = [.pending, .pending, .pending] := by
  refine ⟨?_, by decide +kernel, by decide +kernel, by decide +kernel⟩
  intro pre e post e' hl he
  have : Act.poll e ∈ demoTrailing := by rw [hl]; simp
  simp only [demoTrailing, demoOpen, List.cons_append, List.nil_append, List.mem_cons, Act.poll.injEq, reduceCtorEq, false_or, or_false,
    List.not_mem_nil] at this
  rcases this with rfl | rfl | rfl | rfl | rfl | rfl | rfl <;> simp [demoEnv_read] at he

/-- C86: the same session without the byte is committed. -/
example : (((Driver.new demoConn true).run demoCfg demoOut (demoOpen ++ [.poll (demoEnv (.data [0x15, 3, 3, 0, 2, 1, 0]))])).1.step demoCfg demoOut
    (.poll (demoEnv .eof))).2 = .committed := by decide +kernel

/-- A poll with the application gone. -/
def demoGone (s : SockRead) : Env := { demoEnv s with appSink := .broken }

def demoUnread : List Act := [.poll (demoEnv .pending), .poll (demoEnv (.data demoFlight)), .poll (demoEnv .pending),
  .poll (demoGone (.data demoSecond)), .poll (demoGone .pending)]

/-- C86: the application drops its connection before it has read what the server sent. -/
example : EofLast demoUnread ∧
    ((Driver.new demoConn true).run demoCfg demoOut demoUnread).1.client.inner.conn.io.common.received.chunks ≠ [] ∧
    (((Driver.new demoConn true).run demoCfg demoOut demoUnread).1.run demoCfg demoOut
      [.appClose, .poll (demoGone .eof), .poll (demoGone .eof)]).2.map (·.2) = [.none, .pending, .pending] := by
  refine ⟨?_, by decide +kernel, by decide +kernel⟩
  intro pre e post e' hl he
  have : Act.poll e ∈ demoUnread := by rw [hl]; simp
  simp only [demoUnread, List.mem_cons, Act.poll.injEq, or_false, List.not_mem_nil] at this
  rcases this with rfl | rfl | rfl | rfl | rfl <;> simp [demoEnv_read, demoGone] at he

/-- The prover after the client hello was sent. -/
def demoHello : Driver := ((Driver.new demoConn true).run demoCfg demoOut [.poll (demoEnv .pending)]).1

theorem demo_quiet (log more : List Ev) (hm : ∀ e ∈ more, Ev.quiet e) :
    demoWorld.nextIn (log ++ more) = demoWorld.nextIn log ∧ demoWorld.nextOut (log ++ more) = demoWorld.nextOut log := by
  induction more using List.reverseRecOn with
  | nil => rw [List.append_nil]; exact ⟨rfl, rfl⟩
  | append_singleton l e ih =>
    obtain ⟨h1, h2⟩ := ih fun e he => hm e (List.mem_append_left _ he)
    rw [← h1, ← h2, ← List.append_assoc]
    rcases hm e (by simp) with rfl | rfl | rfl <;>
      simp only [demoWorld, List.filterMap_append (l := log ++ l)] <;>
      exact ⟨congrArg _ (by simp), congrArg _ (by simp)⟩

theorem demoHello_waits : Waits demoWorld demoHello.client.inner.conn := by
  have hs : (match demoHello.client.inner.conn.state with | .ok _ => true | .error _ => false) = true := by decide +kernel
  have hi : (match demoWorld.nextIn demoHello.client.inner.conn.io.common.log with | .ok none => true | _ => false) = true := by decide +kernel
  have ho : (match demoWorld.nextOut demoHello.client.inner.conn.io.common.log with | .ok none => true | _ => false) = true := by decide +kernel
  have hf : demoHello.client.inner.conn.io.deframer.frames = [] := by decide +kernel
  have hd : demoHello.client.inner.conn.io.deframer.desynced = false := by decide +kernel
  have hm : demoHello.client.inner.conn.io.common.maySend = false := by decide +kernel
  revert hs hi ho hf hd hm
  generalize demoHello.client.inner.conn = c
  intro hs hi ho hf hd hm
  refine ⟨⟨hf, hd, ?_⟩, hm, ⟨fun _ _ => rfl, fun m hm => ?_, fun m hm => ?_⟩⟩
  · split at hs
    · exact ⟨_, by assumption⟩
    · cases hs
  · refine ((demo_quiet _ m hm).1).trans ?_
    split at hi
    · assumption
    · cases hi
  · refine ((demo_quiet _ m hm).2).trans ?_
    split at ho
    · assumption
    · cases ho

/-- C86: the server closes the connection after the client hello, and there is no bound on the depth of the calls. -/
example (fuel : Nat) : (demoHello.step demoCfg demoOut (.poll { demoEnv .eof with fuel := fuel })).2 = .overflow := by
  have h1 : demoHello.phase = .connected := by decide +kernel
  have h2 : demoHello.output = false := by decide +kernel
  have h3 : demoHello.client.phase = .active := by decide +kernel
  have h4 : demoHello.fromServer = [] := by decide +kernel
  have h5 : demoHello.client.inner.conn.isHandshaking = true := by decide +kernel
  have h6 := demoHello_waits
  revert h1 h2 h3 h4 h5 h6
  generalize demoHello = d
  intro h1 h2 h3 h4 h5 h6
  exact C86_eof_in_handshake demoOut d h1 h2 h3 h4 h5 h6 _ rfl fun k => ⟨9, rfl⟩

/-- C86: the same poll returns if the server has not closed. -/
example : (demoHello.step demoCfg demoOut (.poll { demoEnv .pending with fuel := 5 })).2 = .pending := by decide +kernel

/-- C87: the user switches decryption off, and on again. -/
example : choices (demoOpen ++ [.setDecrypt false]) = [false] ∧
    ((Driver.new demoConn true).run demoCfg demoOut (demoOpen ++ [.setDecrypt false])).1.client.phase = .active ∧
    ((Driver.new demoConn true).run demoCfg demoOut (demoOpen ++ [.setDecrypt false])).1.client.inner.conn.isHandshaking = false ∧
    settingAt true ((Driver.new demoConn true).run demoCfg demoOut
      (demoOpen ++ [.setDecrypt false, .poll (demoEnv .pending)])).1.client.inner.conn.io.common.log = false ∧
    settingAt true ((Driver.new demoConn true).run demoCfg demoOut
      (demoOpen ++ [.setDecrypt false, .poll (demoEnv .pending), .setDecrypt true, .poll (demoEnv .pending)])).1.client.inner.conn.io.common.log =
        true := by
  refine ⟨rfl, ?_, ?_, ?_, ?_⟩ <;> decide +kernel

/-- C87: after the application has closed its side, the user switches decryption off; records are still decrypted. -/
example : ((Driver.new demoConn true).run demoCfg demoOut demoClose).1.client.clientWantsClose = true ∧
    settingAt true ((Driver.new demoConn true).run demoCfg demoOut
      (demoClose ++ [.setDecrypt false, .poll (demoEnv .pending), .poll (demoEnv .pending)])).1.client.inner.conn.io.common.log = true := by
  constructor <;> decide +kernel

end Tlsn.Drive
