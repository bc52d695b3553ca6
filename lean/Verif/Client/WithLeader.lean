import Verif.Client.Props
import Verif.Client.Faithful
import Verif.Session.Delivered
import Verif.Client.Unprotected

/-!
# The TLS client with the leader as its backend

So far the backend of the client was any function of the history.  Here it is the model of crates/mpc-tls/src/leader.rs: each call
that the client makes is a call on a leader, which was allocated and preprocessed before (crates/tlsn/src/deps/prover.rs:104-125).
A call is performed as a whole; futures that are dropped in the middle of a call are left out here.
-/

namespace Tlsn.Client

open Tlsn.Mpc (Silent LCall LResult Leader Deps Limits HsData PubKey PlainMsg toArray32)

/-- crates/mpc-tls/src/leader.rs:765-777 `HandshakeData` as the leader reads it; the random is an array of 32 bytes there
(crates/tls-core/src/msgs/handshake.rs:97-98), and the curve P-256 has the number 0x17. -/
def HandshakeData.forLeader (h : HandshakeData) : Option HsData :=
  (toArray32 h.random).map fun random =>
    ⟨random, ⟨if h.key.group = 0x17 then .secp256r1 else .other h.key.group, h.key.payload⟩, h.chain, h.kxParams, h.sig.scheme, h.sig.sig⟩

/-- The call on the leader that an event stands for: the calls of `MpcTlsLeader` in crates/mpc-tls/src/client/hs.rs:57,
crates/mpc-tls/src/client/tls12.rs:588-911 and crates/mpc-tls/src/client/conn.rs:125-664. -/
def Ev.leaderCall : Ev → Option LCall
  | .random _ => some .clientRandom
  | .keyShare _ => some .clientKeyShare
  | .prepare hs _ => hs.forLeader.map .prepareEncryption
  | .clientVd hash _ => some (.clientFinishedVd hash)
  | .serverVd hash _ => some (.serverFinishedVd hash)
  | .startTraffic _ => some .startTraffic
  | .pushIn m _ => some (.pushIncoming m)
  | .pushOut m _ => some (.pushOutgoing ⟨m.typ, m.version, m.payload⟩)
  | .flush _ => some .flush
  | .nextIn _ => some .nextIncoming
  | .nextOut _ => some .nextOutgoing
  | .close _ => some .closeConnection
  | .enable b => some (.enableDecryption b)
  | _ => none

/-- A leader and what surrounds it: `around i` is what happens around its `i`-th call from the client. -/
structure Backend where
  D : Deps
  limits : Limits
  sk : Nat
  vm : Hmac.Vm
  defer : Bool
  random : Vector Byte 32
  otp : Bytes
  peerKey : Option Kex.Point
  w0 : Mpc.World
  w1 : Mpc.World
  around : Nat → Mpc.World
  /-- `EncodedPoint` of a key, crates/mpc-tls/src/leader.rs:255-262. -/
  encodePoint : Kex.Point → Bytes
  sessionId : List Ev → Reply Bytes
  now : List Ev → Nat
  sign : List Ev → UInt16 → Bytes → Reply Bytes

namespace Backend

/-- crates/tlsn/src/deps/prover.rs:104-125 `setup`. -/
def setup (B : Backend) : List (LCall × Mpc.World) := [(.alloc B.random B.otp, B.w0), (.preprocess B.peerKey, B.w1)]

/-- The calls from the client. -/
def calls (B : Backend) (log : List Ev) : List (LCall × Mpc.World) :=
  log.foldl (fun cs e => cs ++ (e.leaderCall.map fun c => (c, B.around cs.length)).toList) []

/-- What the leader was asked, and what it answered. -/
def history (B : Backend) (log : List Ev) : Leader × List (List Mpc.Msg × LResult) :=
  (Leader.new B.sk B.vm B.defer).run B.D B.limits (B.setup ++ B.calls log)

/-- The answer to a call. -/
def answer (B : Backend) (log : List Ev) (c : LCall) : LResult :=
  ((B.history log).1.step B.D B.limits (B.around (B.calls log).length) c).2.2

end Backend

/-- The answer as the client gets it; an answer of another kind does not happen. -/
def replyTo {α : Type} (f : LResult → Option α) : LResult → Reply α
  | .failed _ => .failed 0
  | .panicked => .panicked
  | r => match f r with
    | some a => .ok a
    | none => .panicked

/-- The leader as the backend of a client. -/
def Backend.world (B : Backend) : World where
  sessionId := B.sessionId
  now := B.now
  sign := B.sign
  random log := replyTo (fun | .random r => some r.toList | _ => none) (B.answer log .clientRandom)
  keyShare log := replyTo (fun | .keyShare p => some ⟨0x17, B.encodePoint p⟩ | _ => none) (B.answer log .clientKeyShare)
  prepare log hs := match hs.forLeader with
    | none => .panicked
    | some h => replyTo (fun _ => some ()) (B.answer log (.prepareEncryption h))
  clientVd log hash := replyTo (fun | .vd v => some v | _ => none) (B.answer log (.clientFinishedVd hash))
  serverVd log hash := replyTo (fun | .vd v => some v | _ => none) (B.answer log (.serverFinishedVd hash))
  startTraffic log := replyTo (fun _ => some ()) (B.answer log .startTraffic)
  pushIn log m := replyTo (fun _ => some ()) (B.answer log (.pushIncoming m))
  pushOut log m := replyTo (fun _ => some ()) (B.answer log (.pushOutgoing ⟨m.typ, m.version, m.payload⟩))
  flush log := replyTo (fun _ => some ()) (B.answer log .flush)
  nextIn log := replyTo (fun | .incoming m => some (m.map fun m => ⟨m.typ, m.version, m.payload⟩) | _ => none) (B.answer log .nextIncoming)
  nextOut log := replyTo (fun | .outgoing m => some m | _ => none) (B.answer log .nextOutgoing)
  close log := replyTo (fun _ => some ()) (B.answer log .closeConnection)

/-- The call was answered. -/
def Ev.Answered : Ev → Prop
  | .random r => ∃ a, r = .ok a
  | .keyShare r => ∃ a, r = .ok a
  | .prepare _ r => ∃ a, r = .ok a
  | .clientVd _ r => ∃ a, r = .ok a
  | .serverVd _ r => ∃ a, r = .ok a
  | .startTraffic r => ∃ a, r = .ok a
  | .pushIn _ r => ∃ a, r = .ok a
  | .pushOut _ r => ∃ a, r = .ok a
  | .flush r => ∃ a, r = .ok a
  | .nextIn r => ∃ a, r = .ok a
  | .nextOut r => ∃ a, r = .ok a
  | .close r => ∃ a, r = .ok a
  | _ => True

theorem replyTo_ok {α : Type} {f : LResult → Option α} {r : LResult} {a : α} (h : replyTo f r = .ok a) : r.Fine ∧ f r = some a := by
  cases r <;> simp only [replyTo] at h <;> first | cases h | skip
  all_goals
    split at h
    · rename_i e; cases h; exact ⟨trivial, e⟩
    · cases h

theorem Backend.calls_snoc (B : Backend) (log : List Ev) (e : Ev) :
    B.calls (log ++ [e]) = B.calls log ++ (e.leaderCall.map fun c => (c, B.around (B.calls log).length)).toList := by
  simp [Backend.calls, List.foldl_append]

/-- If the calls of a history were answered, the leader's calls did not fail. -/
theorem Backend.fine (B : Backend) (hset : ∀ r ∈ (B.history []).2, r.2.Fine) (log : List Ev) (hf : Faithful B.world log)
    (ha : ∀ e ∈ log, e.Answered) : ∀ r ∈ (B.history log).2, r.2.Fine := by
  induction log using List.reverseRecOn with
  | nil => exact hset
  | append_singleton log e ih =>
    have ih := ih (fun pre x post hl => hf pre x (post ++ [e]) (by rw [hl]; simp)) (fun x hx => ha x (List.mem_append_left _ hx))
    have he := hf log e [] rfl
    have ha := ha e (by simp)
    intro r hr
    unfold Backend.history at hr
    rw [B.calls_snoc, ← List.append_assoc, leader_run_append] at hr
    rcases List.mem_append.1 hr with hr | hr
    · exact ih r hr
    · cases hc : e.leaderCall with
      | none => rw [hc] at hr; simp [Leader.run] at hr
      | some c =>
        rw [hc] at hr
        simp only [Option.map_some, Option.toList_some, Leader.run, List.mem_singleton] at hr
        have key : (B.answer log c).Fine := by
          cases e <;> simp only [Ev.leaderCall, Option.some.injEq, reduceCtorEq, Option.map_eq_some_iff] at hc <;>
            simp only [AnswerOf, Backend.world, Ev.Answered] at he ha
          case prepare hs r =>
            obtain ⟨h, h1, rfl⟩ := hc
            rw [h1] at he
            obtain ⟨a, ha⟩ := ha
            exact (replyTo_ok (he.symm.trans ha)).1
          case enable b => subst hc; trivial
          all_goals
            subst hc
            obtain ⟨a, ha⟩ := ha
            exact (replyTo_ok (he.symm.trans ha)).1
        subst hr
        exact key

/-- Records that the client sends to the server in the name of the leader. -/
def Ev.sealed : Ev → List OpaqueMessage
  | .nextOut (.ok (some m)) => [m]
  | _ => []

/-- Records that the leader gave to the client. -/
theorem Backend.handed (B : Backend) (log : List Ev) (hf : Faithful B.world log) (ha : ∀ e ∈ log, e.Answered) :
    Mpc.deliveredIn (B.history log).2 = (log.flatMap Ev.opened).map (fun m => (m.typ, some m.payload)) ∧
      Mpc.handedOut (B.history log).2 = (log.flatMap Ev.sealed).map (fun m => (m.typ, some m.payload)) := by
  induction log using List.reverseRecOn with
  | nil =>
    have h1 := Mpc.bare_none (ms := ((Leader.new B.sk B.vm B.defer).step B.D B.limits B.w0 (.alloc B.random B.otp)).2.1)
      (Mpc.bare_step B.D B.limits (Leader.new B.sk B.vm B.defer) B.w0 (.alloc B.random B.otp) (by simp) (by simp))
    have h2 := Mpc.bare_none
      (ms := (((Leader.new B.sk B.vm B.defer).step B.D B.limits B.w0 (.alloc B.random B.otp)).1.step B.D B.limits B.w1 (.preprocess B.peerKey)).2.1)
      (Mpc.bare_step B.D B.limits ((Leader.new B.sk B.vm B.defer).step B.D B.limits B.w0 (.alloc B.random B.otp)).1 B.w1
        (.preprocess B.peerKey) (by simp) (by simp))
    have e : (B.history []).2 = [((Leader.new B.sk B.vm B.defer).step B.D B.limits B.w0 (.alloc B.random B.otp)).2] ++
        [(((Leader.new B.sk B.vm B.defer).step B.D B.limits B.w0 (.alloc B.random B.otp)).1.step B.D B.limits B.w1 (.preprocess B.peerKey)).2] := rfl
    rw [e, Mpc.deliveredIn_append, Mpc.handedOut_append]
    exact ⟨by rw [h1.1, h2.1]; rfl, by rw [h1.2, h2.2]; rfl⟩
  | append_singleton log e ih =>
    obtain ⟨i1, i2⟩ := ih (fun pre x post hl => hf pre x (post ++ [e]) (by rw [hl]; simp)) (fun x hx => ha x (List.mem_append_left _ hx))
    have he := hf log e [] rfl
    have ha := ha e (by simp)
    have hh : (B.history (log ++ [e])).2 = (B.history log).2 ++
        ((B.history log).1.run B.D B.limits (e.leaderCall.map fun c => (c, B.around (B.calls log).length)).toList).2 := by
      unfold Backend.history
      rw [B.calls_snoc, ← List.append_assoc, leader_run_append]
    rw [hh, Mpc.deliveredIn_append, Mpc.handedOut_append, i1, i2, List.flatMap_append, List.flatMap_append, List.map_append, List.map_append,
      List.append_cancel_left_eq, List.append_cancel_left_eq]
    have other : ∀ c, e.leaderCall = some c → c ≠ .nextIncoming → c ≠ .nextOutgoing → e.opened = [] → e.sealed = [] →
        (Mpc.deliveredIn ((B.history log).1.run B.D B.limits (e.leaderCall.map fun c => (c, B.around (B.calls log).length)).toList).2 =
          ([e].flatMap Ev.opened).map (fun m => (m.typ, some m.payload)) ∧
        Mpc.handedOut ((B.history log).1.run B.D B.limits (e.leaderCall.map fun c => (c, B.around (B.calls log).length)).toList).2 =
          ([e].flatMap Ev.sealed).map (fun m => (m.typ, some m.payload))) := by
      intro c hc h1 h2 h3 h4
      rw [hc]
      simp only [List.flatMap_cons, List.flatMap_nil, List.append_nil, h3, h4, List.map_nil]
      exact Mpc.bare_none (Mpc.bare_step B.D B.limits _ _ c h1 h2)
    cases hc : e.leaderCall with
    | none =>
      cases e <;> simp [Ev.leaderCall] at hc <;> exact ⟨rfl, rfl⟩
    | some c =>
      rw [← hc]
      cases e with
      | nextIn r =>
        obtain ⟨a, rfl⟩ := ha
        obtain ⟨-, h2⟩ := replyTo_ok he.symm
        show Mpc.deliveredIn [((B.history log).1.step B.D B.limits (B.around (B.calls log).length) .nextIncoming).2] = _ ∧
          Mpc.handedOut [((B.history log).1.step B.D B.limits (B.around (B.calls log).length) .nextIncoming).2] = _
        unfold Backend.answer at h2
        revert h2
        rcases (B.history log).1.step B.D B.limits (B.around (B.calls log).length) .nextIncoming with ⟨l', ms, r⟩
        intro h2
        cases r <;> simp only [reduceCtorEq, Option.some.injEq] at h2
        subst h2
        rename_i m
        cases m <;> exact ⟨rfl, rfl⟩
      | nextOut r =>
        obtain ⟨a, rfl⟩ := ha
        obtain ⟨-, h2⟩ := replyTo_ok he.symm
        show Mpc.deliveredIn [((B.history log).1.step B.D B.limits (B.around (B.calls log).length) .nextOutgoing).2] = _ ∧
          Mpc.handedOut [((B.history log).1.step B.D B.limits (B.around (B.calls log).length) .nextOutgoing).2] = _
        unfold Backend.answer at h2
        revert h2
        rcases (B.history log).1.step B.D B.limits (B.around (B.calls log).length) .nextOutgoing with ⟨l', ms, r⟩
        intro h2
        cases r <;> simp only [reduceCtorEq, Option.some.injEq] at h2
        subst h2
        rename_i m
        cases m <;> exact ⟨rfl, rfl⟩
      | prepare hs r =>
        refine other c hc ?_ ?_ rfl rfl <;> rintro rfl <;> simp [Ev.leaderCall] at hc
      | _ => first | exact other _ rfl (by simp) (by simp) rfl rfl | cases hc

/-! ## The client's random -/

/-- The random of a leader that has one and may give it. -/
def HasRandom (cr : Vector Byte 32) : Mpc.LState → Prop
  | .init _ _ => False
  | .setup _ r => r = cr
  | .ready _ r => r = cr
  | _ => True

theorem HasRandom.step {D : Deps} {cfg : Limits} {cr : Vector Byte 32} {l : Leader} (h : HasRandom cr l.state) (w : Mpc.World) (c : LCall) :
    HasRandom cr (l.step D cfg w c).1.state := by
  obtain ⟨st, dec⟩ := l
  have hact : ∀ f, HasRandom cr ((⟨st, dec⟩ : Leader).inActive f).1.state := by
    intro f
    cases st with
    | active a =>
      simp only [Leader.inActive]
      generalize (f a) = r
      rcases r with ⟨a', ms, r⟩
      cases r <;> trivial
    | _ => exact h
  have hset : ∀ rl, HasRandom cr (st.setLayer rl) := by
    intro rl
    cases st <;> exact h
  cases c with
  | alloc random otp => cases st <;> first | exact h.elim | trivial
  | preprocess pk =>
    cases st with
    | setup c r =>
      simp only [Leader.step, Leader.preprocess]
      split
      · split
        · exact h
        · trivial
      · trivial
    | init => exact h.elim
    | _ => trivial
  | clientRandom => exact h
  | clientKeyShare => exact h
  | prepareEncryption hs =>
    cases st with
    | ready c r =>
      simp only [Leader.step, Leader.prepareEncryption]
      split
      · trivial
      · split
        · trivial
        · split <;> trivial
    | init => exact h.elim
    | _ => trivial
  | clientFinishedVd _ => exact hact _
  | serverFinishedVd _ => exact hact _
  | pushIncoming _ => exact hact _
  | pushOutgoing _ => exact hact _
  | startTraffic => exact hact _
  | nextIncoming =>
    simp only [Leader.step, Leader.nextIncoming]
    split
    · exact h
    · split
      · exact hset _
      · split
        · trivial
        · exact hset _
  | nextOutgoing =>
    simp only [Leader.step, Leader.nextOutgoing]
    split
    · exact h
    · split
      · exact hset _
      · split
        · trivial
        · exact hset _
  | flush =>
    simp only [Leader.step, Leader.flush]
    split
    · exact h
    · exact h
    · exact hact _
  | isEmpty => exact h
  | closeConnection =>
    cases st with
    | active a =>
      simp only [Leader.step, Leader.closeConnection]
      split
      · trivial
      · split <;> trivial
    | init => exact h.elim
    | _ => trivial
  | enableDecryption _ => exact h
  | finish => cases st <;> exact h

theorem HasRandom.run {D : Deps} {cfg : Limits} {cr : Vector Byte 32} {l : Leader} (h : HasRandom cr l.state)
    (cs : List (LCall × Mpc.World)) : HasRandom cr (l.run D cfg cs).1.state := by
  induction cs generalizing l with
  | nil => exact h
  | cons x xs ih => exact ih (h.step x.2 x.1)

theorem Backend.random_eq (B : Backend) (log : List Ev) (r : Vector Byte 32) (h : B.answer log .clientRandom = .random r) :
    r = B.random := by
  have h0 : HasRandom B.random ((Leader.new B.sk B.vm B.defer).step B.D B.limits B.w0 (.alloc B.random B.otp)).1.state := by
    simp only [Leader.step, Leader.alloc, Leader.new]
    split
    · rfl
    · trivial
  have h1 : HasRandom B.random (B.history log).1.state := h0.run ((.preprocess B.peerKey, B.w1) :: B.calls log)
  unfold Backend.answer at h
  revert h h1
  generalize (B.history log).1 = l
  obtain ⟨st, dec⟩ := l
  intro h h1
  cases st <;> first | (cases h; done) | skip
  cases h
  exact h1

/-! ## The calls are those of the history -/

theorem Backend.mem_calls (B : Backend) (log : List Ev) (x : LCall × Mpc.World) (h : x ∈ B.calls log) : ∃ e ∈ log, e.leaderCall = some x.1 := by
  induction log using List.reverseRecOn with
  | nil => cases h
  | append_singleton log e ih =>
    rw [B.calls_snoc] at h
    rcases List.mem_append.1 h with h | h
    · obtain ⟨e, he, h⟩ := ih h
      exact ⟨e, List.mem_append_left _ he, h⟩
    · rw [Option.mem_toList, Option.map_eq_some_iff] at h
      obtain ⟨c, hc, rfl⟩ := h
      exact ⟨e, by simp, hc⟩

theorem Backend.clientVds (B : Backend) (log : List Ev) : Mpc.clientVdCalls (B.calls log) = eventsOf askedClientVd log := by
  induction log using List.reverseRecOn with
  | nil => rfl
  | append_singleton log e ih =>
    rw [B.calls_snoc, Mpc.clientVdCalls_append, ih, eventsOf_append]
    congr 1
    cases e <;> first | rfl | skip
    rename_i hs r
    simp only [Ev.leaderCall]
    cases hs.forLeader <;> rfl

theorem Backend.serverVds (B : Backend) (log : List Ev) : Mpc.serverVdCalls (B.calls log) = eventsOf askedServerVd log := by
  induction log using List.reverseRecOn with
  | nil => rfl
  | append_singleton log e ih =>
    rw [B.calls_snoc, Mpc.serverVdCalls_append, ih, eventsOf_append]
    congr 1
    cases e <;> first | rfl | skip
    rename_i hs r
    simp only [Ev.leaderCall]
    cases hs.forLeader <;> rfl

theorem Backend.calls_fst (B : Backend) (log : List Ev) : (B.calls log).map (·.1) = log.filterMap Ev.leaderCall := by
  induction log using List.reverseRecOn with
  | nil => rfl
  | append_singleton log e ih =>
    rw [B.calls_snoc, List.map_append, ih, List.filterMap_append]
    congr 1
    cases h : e.leaderCall <;> simp [h]

/-! ## Records -/

theorem outgoings_none (n : Nat) (b : List LCall) (h : ∀ m, .pushOutgoing m ∉ b) (a : List LCall) :
    Mpc.outgoings n (a ++ b) = Mpc.outgoings n a := by
  induction a generalizing n with
  | nil =>
    rw [List.nil_append]
    induction b generalizing n with
    | nil => rfl
    | cons x b ih =>
      have ih := fun n => ih (fun m hm => h m (List.mem_cons_of_mem _ hm)) n
      cases x <;> first | exact ih n | exact absurd List.mem_cons_self (h _)
  | cons x a ih => cases x <;> simp only [List.cons_append, Mpc.outgoings, ih]

theorem incomings_none (n : Nat) (b : List LCall) (h : ∀ m, .pushIncoming m ∉ b) (a : List LCall) :
    Mpc.incomings n (a ++ b) = Mpc.incomings n a := by
  induction a generalizing n with
  | nil =>
    rw [List.nil_append]
    induction b generalizing n with
    | nil => rfl
    | cons x b ih =>
      have ih := fun n => ih (fun m hm => h m (List.mem_cons_of_mem _ hm)) n
      cases x <;> first | exact ih n | exact absurd List.mem_cons_self (h _)
  | cons x a ih => cases x <;> simp only [List.cons_append, Mpc.incomings, ih]

/-- Nothing can be pushed into a leader that is closed. -/
theorem silent_push {D : Deps} {cfg : Limits} (cs : List (LCall × Mpc.World)) {l : Leader} (h : Silent l.state)
    (hx : ∀ r ∈ (l.run D cfg cs).2, r.2.Fine) : (∀ m, .pushOutgoing m ∉ cs.map (·.1)) ∧ (∀ m, .pushIncoming m ∉ cs.map (·.1)) := by
  induction cs generalizing l with
  | nil => constructor <;> intro m hm <;> cases hm
  | cons x xs ih =>
    obtain ⟨c, w⟩ := x
    obtain ⟨i1, i2⟩ := ih (Silent.step (D := D) (cfg := cfg) h w c).1 (fun r hr => hx r (List.mem_cons_of_mem _ hr))
    have h1 : (l.step D cfg w c).2.2.Fine := hx _ List.mem_cons_self
    obtain ⟨st, dec⟩ := l
    constructor
    · intro m hm
      rcases List.mem_cons.1 hm with hm | hm
      · cases hm
        cases st <;> first | (cases h; done) | cases h1
      · exact i1 m hm
    · intro m hm
      rcases List.mem_cons.1 hm with hm | hm
      · cases hm
        cases st <;> first | (cases h; done) | cases h1
      · exact i2 m hm

theorem close_silent {D : Deps} {cfg : Limits} (l : Leader) (w : Mpc.World) : Silent (l.step D cfg w .closeConnection).1.state := by
  obtain ⟨st, dec⟩ := l
  cases st with
  | active a =>
    simp only [Leader.step, Leader.closeConnection]
    split
    · trivial
    · split <;> trivial
  | _ => trivial

/-- A record that the leader takes has room for a nonce and a tag. -/
theorem pushed_long {D : Deps} {cfg : Limits} (cs : List (LCall × Mpc.World)) (l : Leader)
    (hx : ∀ r ∈ (l.run D cfg cs).2, r.2.Fine) (m : OpaqueMessage) (hm : .pushIncoming m ∈ cs.map (·.1)) : 24 ≤ m.payload.length := by
  induction cs generalizing l with
  | nil => cases hm
  | cons x xs ih =>
    obtain ⟨c, w⟩ := x
    rcases List.mem_cons.1 hm with hm | hm
    · cases hm
      have h1 : (l.step D cfg w (.pushIncoming m)).2.2.Fine := hx _ List.mem_cons_self
      obtain ⟨st, dec⟩ := l
      cases st <;> first | cases h1 | skip
      rename_i a
      have h2 : (a.pushIncoming w m).2.2.Fine := h1
      unfold Mpc.Active.pushIncoming Mpc.opaqueIntoParts at h2
      by_cases hlen : m.payload.length < 8 + 16
      · rw [if_pos hlen] at h2
        cases h2
      · omega
    · exact ih _ (fun r hr => hx r (List.mem_cons_of_mem _ hr)) hm

/-- The application data in a record of a transcript. -/
def recordData (r : Record) : Bytes := if r.typ = .applicationData then r.plaintext.getD [] else []

/-- The same of the type and the content of a record. -/
def contentData (c : ContentType × Option Bytes) : Bytes := if c.1 = .applicationData then c.2.getD [] else []

/-- The protected records that the client took from the server. -/
def Ev.protectedRecord : Ev → List OpaqueMessage
  | .pushIn m _ => [m]
  | _ => []

theorem outgoings_data (f : AeadFn) (peer : Nat → Bytes) (n : Nat) (log : List Ev) :
    ((Mpc.outgoings n (log.filterMap Ev.leaderCall)).map (·.inTranscript f peer .leader)).flatMap recordData = sentOf log := by
  induction log generalizing n with
  | nil => rfl
  | cons e log ih =>
    rw [show sentOf (e :: log) = e.sent ++ sentOf log from List.flatMap_cons ..]
    cases e <;> first | exact ih n | skip
    case prepare hs r =>
      rw [List.filterMap_cons]
      simp only [Ev.leaderCall]
      cases hs.forLeader <;> exact ih n
    case pushOut m r =>
      simp only [List.filterMap_cons, Ev.leaderCall, Mpc.outgoings, List.map_cons, List.flatMap_cons, ih]
      rfl

theorem incomings_bytes (f : AeadFn) (n : Nat) (log : List Ev) (hlong : ∀ m r, Ev.pushIn m r ∈ log → 24 ≤ m.payload.length) :
    ((Mpc.incomings n (log.filterMap Ev.leaderCall)).map (·.inTranscript f .leader)).map
      (fun r => (r.typ, r.nonce ++ r.ciphertext ++ r.tag.getD [])) = (log.flatMap Ev.protectedRecord).map fun m => (m.typ, m.payload) := by
  induction log generalizing n with
  | nil => rfl
  | cons e log ih =>
    have ih := fun n => ih n fun m r hm => hlong m r (List.mem_cons_of_mem _ hm)
    rw [List.flatMap_cons]
    cases e <;> first | exact ih n | skip
    case prepare hs r =>
      rw [List.filterMap_cons]
      simp only [Ev.leaderCall]
      cases hs.forLeader <;> exact ih n
    case pushIn m r =>
      have hl := hlong m r List.mem_cons_self
      simp only [List.filterMap_cons, Ev.leaderCall, Mpc.incomings, List.map_cons, ih, Ev.protectedRecord, List.cons_append, List.nil_append]
      congr 1
      simp only [Receiving.inTranscript, Option.getD_some, Prod.mk.injEq, true_and]
      have h1 : m.payload.drop (m.payload.length - 16) = (m.payload.drop 8).drop (m.payload.length - 24) := by
        rw [List.drop_drop]; congr 1; omega
      rw [h1, List.append_assoc, List.take_append_drop, List.take_append_drop]

/-- The calls on the leader, from its set-up to `finish`. -/
def Backend.all (B : Backend) (log : List Ev) (w : Mpc.World) : List (LCall × Mpc.World) := B.setup ++ B.calls log ++ [(.finish, w)]

theorem Backend.all_fst (B : Backend) (log : List Ev) (w : Mpc.World) :
    (B.all log w).map (·.1) = [.alloc B.random B.otp, .preprocess B.peerKey] ++ log.filterMap Ev.leaderCall ++ [.finish] := by
  rw [Backend.all, List.map_append, List.map_append, B.calls_fst]
  rfl

theorem Backend.all_run (B : Backend) (log : List Ev) (w : Mpc.World) : (Leader.new B.sk B.vm B.defer).run B.D B.limits (B.all log w) =
    (((B.history log).1.step B.D B.limits w .finish).1, (B.history log).2 ++ [((B.history log).1.step B.D B.limits w .finish).2]) := by
  rw [Backend.all, leader_run_append]
  rfl

/-- The run of the leader meets the hypotheses of C69. -/
theorem Backend.all_ok {cfg : ClientCfg} {B : Backend} (hset : ∀ r ∈ (B.history []).2, r.2.Fine)
    {W : World} {c0 : Conn} (h : Conn.new cfg = .ok c0) {calls : List Call} {log : List Ev}
    (hlog : log = (c0.run cfg W calls).1.io.common.log) (hfaith : Faithful B.world log) (hlen : log.length + 3 ≤ 2 ^ 64) (hans : ∀ e ∈ log, e.Answered)
    {w : Mpc.World} {t : TlsTranscript} (hfin : ((B.history log).1.step B.D B.limits w .finish).2.2 = .finished (some t)) :
    (((B.history log).1.step B.D B.limits w .finish).2.1, LResult.finished (some t)) ∈
      ((Leader.new B.sk B.vm B.defer).run B.D B.limits (B.all log w)).2 ∧
    (∀ r ∈ ((Leader.new B.sk B.vm B.defer).run B.D B.limits (B.all log w)).2, r.2.Fine) ∧
    (B.all log w).length ≤ 2 ^ 64 ∧ Mpc.VdOnce (B.all log w) := by
  have honce := C81_once W c0 h calls
  rw [← hlog] at honce
  simp only at honce
  obtain ⟨-, -, -, o4, o5, -⟩ := honce
  refine ⟨?_, ?_, ?_, ?_⟩
  · rw [B.all_run, ← hfin]
    simp
  · rw [B.all_run]
    intro r hr
    rcases List.mem_append.1 hr with hr | hr
    · exact B.fine hset log hfaith hans r hr
    · rw [List.mem_singleton] at hr
      rw [hr, hfin]
      trivial
  · have h1 := congrArg List.length (B.all_fst log w)
    rw [List.length_map] at h1
    rw [h1]
    have := List.length_filterMap_le Ev.leaderCall log
    simp only [List.length_append, List.length_cons, List.length_nil]
    omega
  · unfold Mpc.VdOnce
    simp only [Backend.all, Mpc.clientVdCalls_append, Mpc.serverVdCalls_append, B.clientVds, B.serverVds, List.length_append]
    exact ⟨by simpa [Backend.setup, Mpc.clientVdCalls] using o4, by simpa [Backend.setup, Mpc.serverVdCalls] using o5⟩

/-! ## C129 -/

/-- C129.  A client that uses a leader as its backend connects and exchanges data, in whatever way it is called; all calls to the leader are
answered, and then `finish` gives a transcript.  Then there was a handshake `d` in which the server's parameters, certificates and
signature were checked for the configured name (`ServerOk`), and the transcript is about this handshake: it has its randoms, its
ephemeral key, its certificates and its signature, which verifies with the given algorithm; the first record of each direction is the
Finished message of RFC 5246, for the hash of the messages of this handshake and the secret that is the sum of the shares.  The
application data sent according to the transcript is a prefix of what the caller wrote; what the caller read is a prefix of the
application data received according to the transcript; its received records are the protected records that came from the server,
unchanged; the records that the client got to send and the messages that it got to read are the first ones of the transcript.
`Faithful B.world log` holds for every run in which the leader answers the client's calls (`C81_answers`). -/
theorem C129_transcript (cfg : ClientCfg) (B : Backend) (hvm : B.vm.Fresh) (hset : ∀ r ∈ (B.history []).2, r.2.Fine)
    (W : World) (c0 : Conn) (h : Conn.new cfg = .ok c0) (calls : List Call) (log : List Ev)
    (hlog : log = (c0.run cfg W calls).1.io.common.log) (hfaith : Faithful B.world log) (hlen : log.length + 3 ≤ 2 ^ 64) (hans : ∀ e ∈ log, e.Answered)
    (w : Mpc.World) (t : TlsTranscript) (hfin : ((B.history log).1.step B.D B.limits w .finish).2.2 = .finished (some t)) :
    ∃ d : Session, d.ServerOk cfg ∧ d.upToServerFinished cfg <+: significant log ∧
      t.version = .v12 ∧
      t.certificateBinding.clientRandom.toList = d.random ∧ t.certificateBinding.serverRandom.toList = d.sh.random ∧
      t.certificateBinding.serverEphemeralKey.key = d.kx.publicKey ∧ d.kx.namedGroup = 0x17 ∧
      t.serverCertChain = some d.chain ∧
      (∃ alg, t.serverSignature = some ⟨alg, d.kx.dss.sig⟩ ∧ ∃ cert, d.chain.head? = some cert ∧
        B.D.sigAlg cert (d.random ++ d.sh.random ++ d.params) d.kx.dss.scheme d.kx.dss.sig = some alg) ∧
      (∃ w' hs p0 p1 secret, (LCall.prepareEncryption hs, w') ∈ B.calls log ∧ t.time = w'.now ∧ w'.share0 = .ok p0 ∧ w'.share1 = .ok p1 ∧
        (∀ q0 q1, w'.peerShares = some (Kex.fpBytes q0, Kex.fpBytes q1) → p0 + q0 = p1 + q1 ∧ secret = Kex.fpBytes (p0 + q0)) ∧
        let master := B.D.sha.masterSecret secret d.random d.sh.random
        Mpc.StartsWith t.sent (B.D.sha.clientVerifyData master (cfg.hash (transcriptOf (d.upToPrepared cfg)))) ∧
        Mpc.StartsWith t.recv (B.D.sha.serverVerifyData master (cfg.hash (transcriptOf (d.upToServerCcs cfg))))) ∧
      t.sent.flatMap recordData <+: written (c0.run cfg W calls).2 ∧
      readOut (c0.run cfg W calls).2 <+: t.recv.flatMap recordData ∧
      t.recv.map (fun r => (r.typ, r.nonce ++ r.ciphertext ++ r.tag.getD [])) =
        (log.flatMap Ev.protectedRecord).map (fun m => (m.typ, m.payload)) ∧
      (log.flatMap Ev.sealed).map (fun m => (m.typ, some m.payload)) <+: t.sent.map Record.wire ∧
      (log.flatMap Ev.opened).map (fun m => (m.typ, some m.payload)) <+: t.recv.map Record.content := by
  have hgood : Good cfg log := hlog ▸ (run_inv W c0 h calls).weak.good
  have honce := C81_once W c0 h calls
  rw [← hlog] at honce
  simp only at honce
  obtain ⟨-, -, o3, o4, o5, -⟩ := honce
  have hrun := B.all_run log w
  have hfst := B.all_fst log w
  obtain ⟨hmem, hall, hl, hvd⟩ := Backend.all_ok hset h hlog hfaith hlen hans hfin
  obtain ⟨pre, wc, post, cr, otp, pk, hs, wp, hc, hsv, p0, p1, secret, cert, alg, e, hopen, hcalls, hprep, hgroup, -, htime, hver, hbind, hcert,
    hchain, halg, hsig, hp0, hp1, hshare, hsent, hrecv, hcf, hsf, -, -, -, -⟩ :=
    C69_transcript B.D B.limits B.sk B.vm hvm B.defer _ hl hvd hall _ t hmem
  have hin : ∀ c, c ∈ pre.map (·.1) → c = .alloc B.random B.otp ∨ c = .preprocess B.peerKey ∨ (∃ x ∈ log, x.leaderCall = some c) ∨
      c = .finish := by
    intro c hc
    have hc' : c ∈ (B.all log w).map (·.1) := by
      rw [e, List.map_append]
      exact List.mem_append_left _ hc
    rw [hfst] at hc'
    simpa [List.mem_filterMap, or_assoc] using hc'
  have hmemh : ∀ c, c ∈ Mpc.handshakeCalls pre → c ∈ pre.map (·.1) := fun c hc => (List.mem_filter.1 hc).1
  have hcr : cr = B.random := by
    have h1 : LCall.alloc cr otp ∈ pre.map (·.1) := hmemh _ (by rcases hcalls with hcalls | hcalls <;> rw [hcalls] <;> simp)
    rcases hin _ h1 with h1 | h1 | ⟨x, -, h1⟩ | h1
    · injection h1
    · cases h1
    · cases x <;> simp [Ev.leaderCall] at h1
    · cases h1
  obtain ⟨rs, hes⟩ : ∃ r, Ev.serverVd hsv.toList r ∈ log := by
    have h1 : LCall.serverFinishedVd hsv.toList ∈ pre.map (·.1) := hmemh _ (by rcases hcalls with hcalls | hcalls <;> rw [hcalls] <;> simp)
    rcases hin _ h1 with h1 | h1 | ⟨x, hx, h1⟩ | h1
    · cases h1
    · cases h1
    · cases x <;> simp [Ev.leaderCall] at h1
      subst h1
      exact ⟨_, hx⟩
    · cases h1
  obtain ⟨rc, hec⟩ : ∃ r, Ev.clientVd hc.toList r ∈ log := by
    have h1 : LCall.clientFinishedVd hc.toList ∈ pre.map (·.1) := hmemh _ (by rcases hcalls with hcalls | hcalls <;> rw [hcalls] <;> simp)
    rcases hin _ h1 with h1 | h1 | ⟨x, hx, h1⟩ | h1
    · cases h1
    · cases h1
    · cases x <;> simp [Ev.leaderCall] at h1
      subst h1
      exact ⟨_, hx⟩
    · cases h1
  obtain ⟨hs', rp, hep, hhs⟩ : ∃ hs' r, Ev.prepare hs' r ∈ log ∧ hs'.forLeader = some hs := by
    have h1 : LCall.prepareEncryption hs ∈ pre.map (·.1) := List.mem_map.2 ⟨_, hprep, rfl⟩
    rcases hin _ h1 with h1 | h1 | ⟨x, hx, h1⟩ | h1
    · cases h1
    · cases h1
    · cases x <;> simp [Ev.leaderCall] at h1
      exact ⟨_, _, hx, h1⟩
    · cases h1
  -- The handshake.
  obtain ⟨lpre, lpost, hsplit⟩ := List.append_of_mem hes
  obtain ⟨d, hok, hsg, hhash⟩ := hgood.at hsplit
  have hup : d.upToServerFinished cfg <+: significant log := by
    rw [hsplit, significant_append, hsg]
    exact List.prefix_append _ _
  have hsub : ∀ x ∈ d.upToServerFinished cfg, x ∈ log := fun x hx => (List.mem_filter.1 (hup.subset hx)).1
  have hupP : Ev.prepare d.serverData (.ok ()) ∈ log := hsub _ (by simp [Session.upToServerFinished, Session.upToServerCcs, Session.upToFinished, Session.upToPrepared])
  have hupC : Ev.clientVd (cfg.hash (transcriptOf (d.upToPrepared cfg))) (.ok d.vd) ∈ log :=
    hsub _ (by simp [Session.upToServerFinished, Session.upToServerCcs, Session.upToFinished])
  have hupR : Ev.random (.ok d.random) ∈ log :=
    hsub _ (by simp [Session.upToServerFinished, Session.upToServerCcs, Session.upToFinished, Session.upToPrepared, Session.upToCcs,
      Session.upToClientKx, Session.upToClientCert, Session.upToDone, Session.upToRequest, Session.upToKx, Session.upToStatus,
      Session.upToCertificate, Session.upToServerHello, Session.hello])
  have uniq : ∀ {α : Type} (l : List α), l.length ≤ 1 → ∀ a ∈ l, ∀ b ∈ l, a = b := by
    intro α l hl a ha b hb
    match l, hl with
    | [], _ => cases ha
    | [x], _ => rw [List.mem_singleton] at ha hb; rw [ha, hb]
  have hsd : hs' = d.serverData := uniq _ o3 _ (List.mem_filterMap.2 ⟨_, hep, rfl⟩) _ (List.mem_filterMap.2 ⟨_, hupP, rfl⟩)
  have hch : hc.toList = cfg.hash (transcriptOf (d.upToPrepared cfg)) :=
    uniq _ o4 _ (List.mem_filterMap.2 ⟨_, hec, rfl⟩) _ (List.mem_filterMap.2 ⟨_, hupC, rfl⟩)
  have hdr : B.random.toList = d.random := by
    obtain ⟨lp, lq, hs2⟩ := List.append_of_mem hupR
    have h1 : Reply.ok d.random = B.world.random lp := hfaith lp _ lq hs2
    obtain ⟨-, h2⟩ := replyTo_ok h1.symm
    generalize hans : B.answer lp .clientRandom = ans at h2
    cases ans <;> simp at h2
    rename_i r
    rw [← h2, B.random_eq lp r hans]
  subst hsd
  unfold HandshakeData.forLeader at hhs
  rw [Option.map_eq_some_iff] at hhs
  obtain ⟨sr, hsr, rfl⟩ := hhs
  have hsr' : sr.toList = d.sh.random := by
    unfold toArray32 at hsr
    split at hsr
    · cases hsr; rfl
    · cases hsr
  have hgr : d.kx.namedGroup = 0x17 := by
    simp only [Session.serverData] at hgroup
    by_cases hg : d.kx.namedGroup = 0x17
    · exact hg
    · simp [hg] at hgroup
  subst hcr
  -- The records.
  have hpost : (∀ m, .pushOutgoing m ∉ (LCall.closeConnection, wc).1 :: post.map (·.1)) ∧
      (∀ m, .pushIncoming m ∉ (LCall.closeConnection, wc).1 :: post.map (·.1)) := by
    have h1 : ∀ r ∈ ((((Leader.new B.sk B.vm B.defer).run B.D B.limits pre).1.step B.D B.limits wc .closeConnection).1.run B.D B.limits post).2,
        r.2.Fine := by
      intro r hr
      apply hall r
      rw [e, leader_run_append]
      exact List.mem_append_right _ (List.mem_cons_of_mem _ hr)
    obtain ⟨a, b⟩ := silent_push post (close_silent _ _) h1
    constructor
    · intro m hm
      rcases List.mem_cons.1 hm with hm | hm
      · cases hm
      · exact a m hm
    · intro m hm
      rcases List.mem_cons.1 hm with hm | hm
      · cases hm
      · exact b m hm
  have hout : Mpc.outgoings 0 (pre.map (·.1)) = Mpc.outgoings 0 (log.filterMap Ev.leaderCall) := by
    rw [← outgoings_none 0 _ hpost.1 (pre.map (·.1)), ← List.map_cons (f := (·.1)) (a := (LCall.closeConnection, wc)), ← List.map_append, ← e, hfst,
      outgoings_none 0 [.finish] (by simp)]
    rfl
  have hinc : Mpc.incomings 0 (pre.map (·.1)) = Mpc.incomings 0 (log.filterMap Ev.leaderCall) := by
    rw [← incomings_none 0 _ hpost.2 (pre.map (·.1)), ← List.map_cons (f := (·.1)) (a := (LCall.closeConnection, wc)), ← List.map_append, ← e, hfst,
      incomings_none 0 [.finish] (by simp)]
    rfl
  have hlong : ∀ m r, Ev.pushIn m r ∈ log → 24 ≤ m.payload.length := by
    intro m r hm
    refine pushed_long _ _ hall m ?_
    rw [hfst]
    exact List.mem_append_left _ (List.mem_append_right _ (List.mem_filterMap.2 ⟨_, hm, rfl⟩))
  have hw : sentOf log <+: written (c0.run cfg W calls).2 := hlog ▸ (C78_sent W c0 h calls).1
  rw [hdr, hsr'] at halg hcf hsf
  obtain ⟨hd1, hd2⟩ := B.handed log hfaith hans
  have h130 := C130_in_transcript B.D B.limits B.sk B.vm B.defer _ _ t hmem
  have hlast : ∀ x : List Mpc.Msg × LResult, x.2 = .finished (some t) → Mpc.deliveredIn [x] = [] ∧ Mpc.handedOut [x] = [] :=
    fun x hx => Mpc.bare_none (ms := x.1) (by rw [hx]; rfl)
  rw [hrun, Mpc.deliveredIn_append, Mpc.handedOut_append, (hlast _ hfin).1, (hlast _ hfin).2, List.append_nil, List.append_nil, hd1, hd2] at h130
  have hprep' := List.mem_append_left ((LCall.closeConnection, wc) :: post) hprep
  rw [← e] at hprep'
  simp only [Backend.all, Backend.setup, List.mem_append, List.mem_cons, Prod.mk.injEq, reduceCtorEq, false_and, List.not_mem_nil, or_false,
    false_or] at hprep'
  refine ⟨d, hok, hup, hver, ?_, ?_, ?_, hgr, hchain, ⟨alg, hsig, cert, hcert, halg⟩,
    ⟨wp, _, p0, p1, secret, hprep', htime, hp0, hp1, hshare, ?_, ?_⟩, ?_, ?_, ?_, h130.2, h130.1⟩
  · rw [hbind]; exact hdr
  · rw [hbind]; exact hsr'
  · rw [hbind]; rfl
  · rw [← hch]; exact hcf
  · rw [← hhash]; exact hsf
  · rw [hsent, hout, outgoings_data]; exact hw
  · refine (hlog ▸ C78_protected W c0 h calls : readOut _ <+: (log.flatMap Ev.opened).flatMap dataOf).trans ?_
    obtain ⟨x, hx⟩ := h130.1
    have e1 : t.recv.flatMap recordData = (t.recv.map Record.content).flatMap contentData := by
      rw [List.flatMap_map]; rfl
    rw [e1, ← hx, List.flatMap_append, List.flatMap_map]
    exact List.prefix_append _ _
  · rw [hrecv, hinc, incomings_bytes _ _ _ hlong]

end Tlsn.Client
