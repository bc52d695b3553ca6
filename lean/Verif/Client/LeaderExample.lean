import Verif.Client.WithLeader
import Verif.Client.Demo

/-! # A session of a client with a leader

The history of a client is compared with what a leader answers, call by call, in one run of the leader. -/

namespace Tlsn.Client

open Tlsn.Mpc (LCall LResult Leader)

/-- The event holds the answer. -/
def Backend.replied (B : Backend) : Ev → LResult → Bool
  | .random r, a => r = replyTo (fun | .random r => some r.toList | _ => none) a
  | .keyShare r, a => r = replyTo (fun | .keyShare p => some ⟨0x17, B.encodePoint p⟩ | _ => none) a
  | .prepare _ r, a => r = replyTo (fun _ => some ()) a
  | .clientVd _ r, a => r = replyTo (fun | .vd v => some v | _ => none) a
  | .serverVd _ r, a => r = replyTo (fun | .vd v => some v | _ => none) a
  | .startTraffic r, a => r = replyTo (fun _ => some ()) a
  | .pushIn _ r, a => r = replyTo (fun _ => some ()) a
  | .pushOut _ r, a => r = replyTo (fun _ => some ()) a
  | .flush r, a => r = replyTo (fun _ => some ()) a
  | .nextIn r, a => r = replyTo (fun | .incoming m => some (m.map fun m => ⟨m.typ, m.version, m.payload⟩) | _ => none) a
  | .nextOut r, a => r = replyTo (fun | .outgoing m => some m | _ => none) a
  | .close r, a => r = replyTo (fun _ => some ()) a
  | _, _ => true

/-- A leader gives the answers of a history. -/
def Backend.gives (B : Backend) : Leader → Nat → List Ev → Bool
  | _, _, [] => true
  | l, n, e :: rest => match e.leaderCall with
    | none => B.gives l n rest
    | some c => B.replied e (l.step B.D B.limits (B.around n) c).2.2 && B.gives (l.step B.D B.limits (B.around n) c).1 (n + 1) rest

/-- Answers that do not come from the leader. -/
def Backend.Own (B : Backend) : Ev → Prop
  | .sessionId r => ∀ pre, r = B.sessionId pre
  | .now t => ∀ pre, t = B.now pre
  | .sign scheme message r => ∀ pre, r = B.sign pre scheme message
  | .prepare hs _ => hs.forLeader.isSome
  | _ => True

theorem Backend.gives_filter (B : Backend) (l : Leader) (n : Nat) (log : List Ev) :
    B.gives l n (log.filter fun e => e.leaderCall.isSome) = B.gives l n log := by
  induction log generalizing l n with
  | nil => rfl
  | cons e log ih =>
    rw [List.filter_cons]
    cases h : e.leaderCall with
    | none => simp only [Option.isSome_none, Bool.false_eq_true, if_false, Backend.gives, h, ih]
    | some c => simp only [Option.isSome_some, if_true, Backend.gives, h, ih]

theorem Backend.faithful_aux (B : Backend) (log : List Ev) (pre : List Ev) (h : B.gives (B.history pre).1 (B.calls pre).length log = true)
    (ho : ∀ e ∈ log, B.Own e) : ∀ q e post, log = q ++ e :: post → AnswerOf B.world (pre ++ q) e := by
  induction log generalizing pre with
  | nil => intro q e post hl; cases q <;> cases hl
  | cons x log ih =>
    have hh : (B.history (pre ++ [x])).1 =
        ((B.history pre).1.run B.D B.limits (x.leaderCall.map fun c => (c, B.around (B.calls pre).length)).toList).1 := by
      unfold Backend.history
      rw [B.calls_snoc, ← List.append_assoc, leader_run_append]
    have hc := B.calls_snoc pre x
    have key : B.gives (B.history (pre ++ [x])).1 (B.calls (pre ++ [x])).length log = true ∧ AnswerOf B.world pre x := by
      have hox := ho x List.mem_cons_self
      rw [hh, hc]
      unfold Backend.gives at h
      cases hx : x.leaderCall with
      | none =>
        rw [hx] at h
        refine ⟨by simpa [Leader.run] using h, ?_⟩
        cases x <;> first | trivial | exact hox _ | skip
        simp only [Ev.leaderCall, Option.map_eq_none_iff] at hx
        simp [Backend.Own, hx] at hox
      | some c =>
        rw [hx] at h
        simp only [Bool.and_eq_true] at h
        refine ⟨by simpa [Leader.run] using h.2, ?_⟩
        have h1 := h.1
        cases x with
        | prepare hs r =>
          simp only [Ev.leaderCall, Option.map_eq_some_iff] at hx
          obtain ⟨y, hy, rfl⟩ := hx
          simp only [AnswerOf, Backend.world, hy]
          simp only [Backend.replied, decide_eq_true_eq] at h1
          exact h1
        | enable b => trivial
        | _ => first
          | (cases hx; done)
          | (injection hx with hx; subst hx; simp only [Backend.replied, decide_eq_true_eq] at h1; exact h1)
    intro q e post hl
    cases q with
    | nil =>
      cases hl
      rw [List.append_nil]
      exact key.2
    | cons y q =>
      injection hl with h1 h2
      subst h1
      have := ih (pre ++ [x]) key.1 (fun e he => ho e (List.mem_cons_of_mem _ he)) q e post h2
      simpa using this

/-- If a leader gives the answers in a history, then the history is one of a client with this leader. -/
theorem Backend.faithful (B : Backend) (log : List Ev)
    (h : B.gives (B.history []).1 0 (log.filter fun e => e.leaderCall.isSome) = true) (ho : ∀ e ∈ log, B.Own e) : Faithful B.world log :=
  B.faithful_aux log [] (by rw [← B.gives_filter]; exact h) ho

theorem Backend.calls_filter (B : Backend) (log : List Ev) : B.calls (log.filter fun e => e.leaderCall.isSome) = B.calls log := by
  induction log using List.reverseRecOn with
  | nil => rfl
  | append_singleton log e ih =>
    rw [List.filter_append, B.calls_snoc]
    cases h : e.leaderCall with
    | none => simp [h, ih]
    | some c => rw [List.filter_cons, h, if_pos (show (some c).isSome = true from rfl), List.filter_nil, B.calls_snoc, ih, h]

theorem Backend.history_filter (B : Backend) (log : List Ev) : B.history (log.filter fun e => e.leaderCall.isSome) = B.history log := by
  unfold Backend.history
  rw [B.calls_filter]

namespace LeaderExample

open MpcExample (random leaderWorld)

def cfg : ClientCfg := { demoCfg with hash := fun _ => .replicate 32 3 }

def backend : Backend where
  D := MpcExample.deps
  limits := MpcExample.limits
  sk := 2
  vm := emptyVm
  defer := false
  random := random 1
  otp := .replicate 100 5
  peerKey := some Kex.basePoint
  w0 := leaderWorld
  w1 := leaderWorld
  around _ := leaderWorld
  encodePoint _ := [4, 1, 2]
  sessionId _ := .ok (.replicate 32 9)
  now _ := 100
  sign _ _ _ := .ok []

def flight : Bytes := hsRecord [
  ⟨0x02, .serverHello ⟨.tls12, List.replicate 32 8, [], 0xc02b, 0, [.protocols [[0x68, 0x32]], .ecPointFormats [0]]⟩⟩,
  ⟨0x0b, .certificate [[1], [2]]⟩,
  ⟨0x0c, .serverKeyExchange (codecEcdheServerKeyExchange.encode ⟨0x0017, [4, 8, 9], ⟨0x0403, [1, 1, 1, 1]⟩⟩)⟩,
  ⟨0x0e, .serverHelloDone⟩]

def clientVd : Bytes := [112, 173, 131, 26, 60, 164, 136, 39, 8, 155, 141, 52]

def serverVd : Bytes := [186, 116, 253, 117, 134, 108, 2, 130, 82, 99, 7, 143]

def sealedBytes (n : Byte) (b : Bytes) : Bytes := .replicate 7 0 ++ [n] ++ b ++ .replicate 16 0

def protectedFinished : OpaqueMessage := ⟨.handshake, .tls12, sealedBytes 0 ([0x14, 0, 0, 12] ++ serverVd)⟩

def protectedData : OpaqueMessage := ⟨.applicationData, .tls12, sealedBytes 0 [0x68, 0x69]⟩

def second : Bytes := [0x14, 3, 3, 0, 1, 1] ++ protectedFinished.encode ++ protectedData.encode

def calls : List Call := [.start, .writePlaintext [1, 2, 3], .readTls flight, .process 10, .readTls second, .process 10,
  .readPlaintext 100, .sendCloseNotify, .process 10, .serverClosed]

/-- The part of a history before the last flush, which comes in reverse. -/
def upToFlush (log : List Ev) : List Ev := (log.reverse.dropWhile fun e => match e with | .flush _ => false | _ => true).reverse

/-- What the leader gives, without its calculations. -/
def world : World where
  sessionId _ := .ok (.replicate 32 9)
  random _ := .ok (.replicate 32 1)
  keyShare _ := .ok ⟨0x0017, [4, 1, 2]⟩
  now _ := 100
  sign _ _ _ := .ok []
  prepare _ _ := .ok ()
  clientVd _ _ := .ok clientVd
  serverVd _ _ := .ok serverVd
  startTraffic _ := .ok ()
  pushIn _ _ := .ok ()
  pushOut _ _ := .ok ()
  flush _ := .ok ()
  nextIn log := .ok ((log.filterMap fun e => match e with
      | .pushIn m _ => some (⟨m.typ, m.version, (m.payload.drop 8).take (m.payload.length - 24)⟩ : OpaqueMessage)
      | _ => none)[(log.flatMap Ev.opened).length]?)
  nextOut log := .ok (((upToFlush log).filterMap fun e => match e with | .pushOut m _ => some m | _ => none)[(log.flatMap Ev.sealed).length]?.map
      fun m => ⟨m.typ, m.version, sealedBytes (log.flatMap Ev.sealed).length.toUInt8 m.payload⟩)
  close _ := .ok ()

def log : List Ev := (demoConn.run cfg world calls).1.io.common.log

def clientFinished : OpaqueMessage := ⟨.handshake, .tls12, [0x14, 0, 0, 12] ++ clientVd⟩

def hsData : HandshakeData := ⟨List.replicate 32 8, ⟨0x17, [4, 8, 9]⟩, [[1], [2]], [], none, [3, 0, 0x17, 3, 4, 8, 9], ⟨0x0403, [1, 1, 1, 1]⟩⟩

def asked : List Ev := [.random (.ok (.replicate 32 1)), .keyShare (.ok ⟨0x17, [4, 1, 2]⟩), .prepare hsData (.ok ()),
  .clientVd (.replicate 32 3) (.ok clientVd), .pushOut clientFinished (.ok ()), .flush (.ok ()), .nextIn (.ok none),
  .nextOut (.ok (some ⟨.handshake, .tls12, sealedBytes 0 clientFinished.payload⟩)), .nextOut (.ok none),
  .pushIn protectedFinished (.ok ()), .pushIn protectedData (.ok ()), .flush (.ok ()),
  .nextIn (.ok (some ⟨.handshake, .tls12, [0x14, 0, 0, 12] ++ serverVd⟩)), .serverVd (.replicate 32 3) (.ok serverVd), .startTraffic (.ok ()),
  .pushOut ⟨.applicationData, .tls12, [1, 2, 3]⟩ (.ok ()), .nextIn (.ok (some ⟨.applicationData, .tls12, [0x68, 0x69]⟩)), .nextIn (.ok none),
  .nextOut (.ok none), .pushOut ⟨.alert, .tls12, [1, 0]⟩ (.ok ()), .flush (.ok ()), .nextIn (.ok none),
  .nextOut (.ok (some ⟨.applicationData, .tls12, sealedBytes 1 [1, 2, 3]⟩)), .nextOut (.ok (some ⟨.alert, .tls12, sealedBytes 2 [1, 0]⟩)),
  .nextOut (.ok none), .close (.ok ())]

set_option maxRecDepth 100000
theorem log_asked : (log.filter fun e => e.leaderCall.isSome) = asked := by decide +kernel

theorem gives_asked : backend.gives (backend.history []).1 0 asked = true := by decide +kernel

/-- `Ev.Answered`, as it is calculated. -/
def isAnswered : Ev → Bool
  | .random r => isOk r
  | .keyShare r => isOk r
  | .prepare _ r => isOk r
  | .clientVd _ r => isOk r
  | .serverVd _ r => isOk r
  | .startTraffic r => isOk r
  | .pushIn _ r => isOk r
  | .pushOut _ r => isOk r
  | .flush r => isOk r
  | .nextIn r => isOk r
  | .nextOut r => isOk r
  | .close r => isOk r
  | _ => true
where
  isOk {α : Type} : Reply α → Bool
    | .ok _ => true
    | _ => false

theorem answered (e : Ev) (h : isAnswered e = true) : e.Answered := by
  have key : ∀ {α : Type} (r : Reply α), isAnswered.isOk r = true → ∃ a, r = .ok a := by
    intro α r h
    cases r <;> first | exact ⟨_, rfl⟩ | cases h
  cases e <;> first | exact key _ h | trivial

/-- The answers that do not come from the leader. -/
def own : Ev → Bool
  | .sessionId r => r = .ok (.replicate 32 9)
  | .now t => t = 100
  | .sign _ _ r => r = .ok []
  | .prepare hs _ => hs.forLeader.isSome
  | _ => true

theorem owned (e : Ev) (h : own e = true) : backend.Own e := by
  cases e <;> first | trivial | exact fun _ => of_decide_eq_true h

def transcript? : LResult → Option TlsTranscript
  | .finished t => t
  | _ => none

def summary (t : TlsTranscript) : Bytes × Bytes × List Nat := (t.sent.flatMap recordData, t.recv.flatMap recordData, [t.sent.length, t.recv.length])

theorem setup_fine : ∀ r ∈ (backend.history []).2, r.2.Fine := by
  have h : (backend.history []).2.all (fun r => MpcExample.fine r.2) = true := by decide +kernel
  intro r hr
  have h := List.all_eq_true.1 h r hr
  revert h
  cases r.2 <;> first | exact fun _ => trivial | (intro h; cases h)

theorem log_faithful : Faithful backend.world log := by
  refine backend.faithful log (by rw [log_asked]; exact gives_asked) ?_
  have : log.all own = true := by decide +kernel
  exact fun e he => owned e (List.all_eq_true.1 this e he)

theorem log_short : log.length + 3 ≤ 2 ^ 64 := by
  have : log.length ≤ 100 := by decide +kernel
  omega

theorem log_answered : ∀ e ∈ log, e.Answered := by
  have : log.all isAnswered = true := by decide +kernel
  exact fun e he => answered e (List.all_eq_true.1 this e he)

/-- All hypotheses of C129 hold of a connection in which both sides send data, and its transcript has this data. -/
example : emptyVm.Fresh ∧ (∀ r ∈ (backend.history []).2, r.2.Fine) ∧ Conn.new cfg = .ok demoConn ∧
    Faithful backend.world log ∧ log.length + 3 ≤ 2 ^ 64 ∧ (∀ e ∈ log, e.Answered) ∧
    (transcript? ((backend.history log).1.step backend.D backend.limits leaderWorld .finish).2.2).map summary =
      some ([1, 2, 3], [0x68, 0x69], [3, 2]) ∧
    readOut (demoConn.run cfg world calls).2 = [0x68, 0x69] ∧ written (demoConn.run cfg world calls).2 = [1, 2, 3] := by
  refine ⟨emptyVm_fresh, setup_fine, rfl, log_faithful, log_short, log_answered, ?_, by decide +kernel, by decide +kernel⟩
  rw [← backend.history_filter, log_asked]
  decide +kernel

/-- With the leader itself in the place of `world`, the histories are such. -/
example (W : ClientCfg) (B : Backend) (c0 : Conn) (h : Conn.new W = .ok c0) (calls : List Call) :
    Faithful B.world (c0.run W B.world calls).1.io.common.log := C81_answers B.world c0 h calls

end LeaderExample

end Tlsn.Client
