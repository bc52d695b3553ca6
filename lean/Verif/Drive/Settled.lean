import Verif.Drive.Demo

/-! # When a future that processes messages ends -/

namespace Tlsn.Drive

open Tlsn.Client

variable {cfg : ClientCfg} {W : World}

/-- Reports of the bytes that wait to be sent and to be read, each different from the one before. -/
def Moving : List (Nat × Nat) → Prop
  | a :: b :: l => a ≠ b ∧ Moving (b :: l)
  | _ => True

/-- The calls that process messages, with these reports. -/
def processed (n : Nat) (l : List (Nat × Nat)) : List (Call × CReply) := l.map fun x => (.process n, .io x.1 x.2)

theorem settled_reply (n : Nat) (c c' : Conn) (reply : CReply) (h : c.step cfg W (.process n) = (c', reply)) (hf : futRes reply = .ok) :
    reply = .io c'.io.common.sendableTls.len c'.io.common.received.len := by
  replace h : callProcess cfg W n c = (c', reply) := h
  unfold callProcess at h
  split at h
  · cases h; cases hf
  · split at h <;> cases h <;> first | rfl | cases hf

/-- The bytes of a connection that wait to be sent and to be read. -/
def waiting (c : Conn) : Nat × Nat := (c.io.common.sendableTls.len, c.io.common.received.len)

theorem runLoop_settled (n k : Nat) : ∀ (w r : Nat) (i i' : Inner), runLoop cfg W n k w r i = (i', .ok) →
    ∃ l, i'.trace = i.trace ++ processed n (l ++ [waiting i'.conn]) ∧ Moving ((w, r) :: l) ∧ ((w, r) :: l).getLast? = some (waiting i'.conn) := by
  induction k with
  | zero => intro w r i i' h; cases h
  | succ k ih =>
    intro w r i i' h
    rw [runLoop] at h
    cases hs : i.conn.step cfg W (.process n) with
    | mk c reply =>
    have hr := settled_reply n _ _ _ hs
    simp only [Inner.call, hs] at h
    cases reply with
    | io w' r' =>
      dsimp only at h
      have hw : waiting c = (w', r') := by
        have := hr rfl
        injection this with h1 h2
        rw [h1, h2]
        rfl
      by_cases e : r' = r ∧ w' = w
      · obtain ⟨rfl, rfl⟩ := e
        rw [if_pos ⟨rfl, rfl⟩] at h
        injection h with h
        refine ⟨[], ?_, trivial, ?_⟩
        · rw [← h, hw]; rfl
        · rw [← h, hw]; rfl
      · rw [if_neg e] at h
        obtain ⟨l, h1, h2, h3⟩ := ih _ _ _ _ h
        refine ⟨(w', r') :: l, ?_, ⟨?_, h2⟩, ?_⟩
        · rw [h1, List.append_assoc]
          rfl
        · intro h0
          injection h0 with a b
          exact e ⟨b.symm, a.symm⟩
        · rw [List.getLast?_cons_cons]
          exact h3
    | _ =>
      injection h with h0 h
      cases hr h

/-- C84: a future that processes messages ends well as soon as processing changes nothing any more: its calls on the connection are
calls that process messages, each of which finds other numbers of waiting bytes than the one before, but for the last, which finds the same.
So when the prover goes on to the next step, the connection has just been asked for messages and had neither something new to be sent nor to be read. -/
theorem C84_settled (n : Nat) (i i' : Inner) (h : runFut cfg W n i = (i', .ok)) :
    ∃ l, i'.trace = i.trace ++ processed n (l ++ [waiting i'.conn]) ∧ Moving l ∧ l.getLast? = some (waiting i'.conn) := by
  unfold runFut at h
  cases hs : i.conn.step cfg W (.process n) with
  | mk c reply =>
  have hr := settled_reply n _ _ _ hs
  simp only [Inner.call, hs] at h
  cases reply with
  | io w r =>
    obtain ⟨l, h1, h2, h3⟩ := runLoop_settled _ _ _ _ _ _ h
    refine ⟨(w, r) :: l, ?_, h2, h3⟩
    rw [h1, List.append_assoc]
    rfl
  | _ =>
    injection h with h0 h
    cases hr h

/-- A future of the demonstration, in which the client answers the flight of the server. -/
example : ∃ c : Conn, c = (demoConn.run demoCfg demoWorld [.start, .readTls demoFlight]).1 ∧
    (runFut demoCfg demoWorld 10 ⟨c, true, false, []⟩).2 = .ok ∧ (runFut demoCfg demoWorld 10 ⟨c, true, false, []⟩).1.trace.length = 2 :=
  ⟨_, rfl, by decide +kernel⟩

end Tlsn.Drive
