import Verif.Drive.Examples
import Verif.Session.Props

/-! # A response that is cut off: C128

`verify_transcript` (crates/mpc-tls/src/utils.rs:102-131) is documented to check "that both directions of the connection were closed
properly".  TLS asks for a closing alert so that data cut off by an attacker on the network is not taken for the whole
(RFC 5246, 7.2.1).  The code does not ask for it. -/

namespace Tlsn

open Mpc

/-- What RFC 5246, 7.2.1 asks of a direction: its last record is the closing alert. -/
def ClosedByAlert (records : List Record) : Prop :=
  ∃ last level rest, records.getLast? = some last ∧ last.typ = .alert ∧ last.plaintext = some (level :: 0 :: rest)

/-- C128, the part that holds: if the check passes, then a direction is closed by its alert, or ends with application data; so an
accepted direction that does not end with application data is closed by its alert. -/
theorem C128_closed_partial (t : TlsTranscript) (cf sf : Bytes) (h : Mpc.verifyTranscript t cf sf = .ok ()) :
    (ClosedByAlert t.sent ∨ ∃ last, t.sent.getLast? = some last ∧ last.typ = .applicationData) ∧
    (ClosedByAlert t.recv ∨ ∃ last, t.recv.getLast? = some last ∧ last.typ = .applicationData) := by
  obtain ⟨⟨r1, -, h1, -⟩, ⟨r2, -, h2, -⟩, h3, h4⟩ := (C49_verify_transcript t cf sf).1 h
  have key : ∀ (l : List Record) (r : Record), l.head? = some r → EndsProperly l →
      ClosedByAlert l ∨ ∃ last, l.getLast? = some last ∧ last.typ = .applicationData := by
    intro l r hr he
    cases hl : l.getLast? with
    | none => rw [List.getLast?_eq_none_iff] at hl; rw [hl] at hr; cases hr
    | some last =>
      rcases he last hl with ha | ⟨ha, level, rest, hp⟩
      · exact .inr ⟨last, rfl, ha⟩
      · exact .inl ⟨last, level, rest, hl, ha, hp⟩
  exact ⟨key _ _ h1 h3, key _ _ h2 h4⟩

/-- C128 is false of the code: whatever the check accepts, it also accepts with what was received cut off after any record of
application data. -/
theorem C128_truncation_accepted (t : TlsTranscript) (cf sf : Bytes) (h : Mpc.verifyTranscript t cf sf = .ok ())
    (n : Nat) (last : Record) (hn : t.recv[n]? = some last) (ha : last.typ = .applicationData) :
    Mpc.verifyTranscript { t with recv := t.recv.take (n + 1) } cf sf = .ok () ∧ ¬ ClosedByAlert (t.recv.take (n + 1)) := by
  obtain ⟨h1, ⟨r, hdr, h2, h2'⟩, h3, h4⟩ := (C49_verify_transcript t cf sf).1 h
  have hlast : (t.recv.take (n + 1)).getLast? = some last := by
    rw [List.getLast?_take, if_neg (by omega), Nat.add_sub_cancel, hn]; rfl
  refine ⟨(C49_verify_transcript _ cf sf).2 ⟨h1, ⟨r, hdr, ?_, h2'⟩, h3, ?_⟩, ?_⟩
  · show (t.recv.take (n + 1)).head? = some r
    rw [List.head?_take, if_neg (by omega), h2]
  · intro l hl
    have hl' : (t.recv.take (n + 1)).getLast? = some l := hl
    rw [hlast] at hl'
    cases hl'
    exact .inl ha
  · rintro ⟨l, level, rest, hl, hal, -⟩
    rw [hlast] at hl
    cases hl
    rw [ha] at hal
    cases hal

/-- Five records received: the end of the handshake, "Transfer 1", "0", "0 EUR", and the closing alert. -/
def wholeRecv : List Record :=
  [⟨0, .handshake, some [0x14, 0, 0, 2, 7, 8], [], [], none⟩, ⟨1, .applicationData, none, [], [0x31], none⟩,
   ⟨2, .applicationData, none, [], [0x30], none⟩, ⟨3, .applicationData, none, [], [0x30], none⟩,
   ⟨4, .alert, some [1, 0], [], [], none⟩]

/-- C128: with any other fields, this is accepted whole, and cut off after each of the records of application data. -/
example (t : TlsTranscript) (hs : t.sent = [⟨0, .handshake, some [0x14, 0, 0, 2, 5, 6], [], [], none⟩, ⟨1, .alert, some [1, 0], [], [], none⟩])
    (hr : t.recv = wholeRecv) : Mpc.verifyTranscript t [5, 6] [7, 8] = .ok () ∧
      (∀ n ∈ [1, 2, 3], Mpc.verifyTranscript { t with recv := wholeRecv.take (n + 1) } [5, 6] [7, 8] = .ok ()) ∧
      Mpc.verifyTranscript { t with recv := wholeRecv.take 1 } [5, 6] [7, 8] = .err .peer := by
  obtain ⟨a, b, c, d, e, sent, recv, f, g, h⟩ := t
  cases hs
  cases hr
  refine ⟨by rfl, ?_, by rfl⟩
  simp only [List.mem_cons, List.not_mem_nil, or_false, forall_eq_or_imp, forall_eq]
  exact ⟨by rfl, by rfl, by rfl⟩

end Tlsn

namespace Tlsn.Drive

open Tlsn.Client

/-- The server has sent the header of a record of 200 bytes, and two bytes of it. -/
def demoCut : List Act := demoOpen ++ [.poll (demoEnv (.data [0x17, 3, 3, 0, 200, 1, 0]))]

/-- C128 is false of the prover, too: the connection ends in the middle of a record, the server has sent no closing alert, and the
future returns the committed prover; the application has been given what came before. -/
theorem C128_committed_without_alert :
    ∃ (cfg : ClientCfg) (c0 : Conn) (X : Outside) (acts : List Act) (e : Env), Conn.new cfg = .ok c0 ∧ EofLast (acts ++ [.poll e]) ∧
      (((Driver.new c0 true).run cfg X acts).1.step cfg X (.poll e)).2 = .committed ∧
      (((Driver.new c0 true).run cfg X acts).1.step cfg X (.poll e)).1.client.inner.conn.io.common.closeNotify = false ∧
      (((Driver.new c0 true).run cfg X acts).1.step cfg X (.poll e)).1.appOut = [0x68, 0x69] ∧
      (((Driver.new c0 true).run cfg X acts).1.step cfg X (.poll e)).1.socketIn = demoFlight ++ demoSecond ++ [0x17, 3, 3, 0, 200, 1, 0] := by
  refine ⟨demoCfg, demoConn, demoOut, demoCut, demoEnv .eof, rfl, eofLast_snoc _ _ ?_, by decide +kernel, by decide +kernel,
    by decide +kernel, by decide +kernel⟩
  intro e he
  simp only [demoCut, demoOpen, List.cons_append, List.nil_append, List.mem_cons, Act.poll.injEq, reduceCtorEq, false_or, or_false,
    List.not_mem_nil] at he
  rcases he with rfl | rfl | rfl | rfl | rfl | rfl <;> simp [demoEnv_read]

end Tlsn.Drive
