import Verif.Base.Basic

/-!
# How the verifier of the proxy mode forwards the connection

crates/tlsn/src/verifier.rs:309-353 `run`, up to the end of the forwarding, and the reader that records, crates/tlsn/src/proxy.rs:127-169.

`futures::io::copy` is outside the repository.  It is modelled as it is written: it fills a buffer of at most eight kilobytes
from the reader when the buffer is empty, writes what is in the buffer, flushes the writer when the reader has ended, and
returns.  The sockets are the environment: a history is the list of the calls on them that were ready, with their results.
A call that is pending changes nothing and is left out.
-/

namespace Tlsn.Proxy

/-- Where one of the two futures of crates/tlsn/src/verifier.rs:333-343 is. -/
inductive CopyPhase where
  | copying
  | flushing
  | closing
  | done
  | failed
  deriving DecidableEq, Repr

/-- The result of one call on the sockets of a future: of `poll_read` (with the time at that moment), `poll_write`,
`poll_flush` or `poll_close`, or an error of any of them.  A read of no bytes is the end of the stream. -/
inductive IoEvent where
  | read (data : Bytes) (now : Nat)
  | wrote (n : Nat)
  | flushed
  | closed
  | error
  deriving DecidableEq, Repr

/-- One direction.  `record` and `firstRead` are the fields of the `InspectReader` (crates/tlsn/src/proxy.rs:131-135), `pending` is what the
buffer of `copy` still holds.  `taken`, `given`, `ended` and `shut` say what happened on the sockets: the bytes that were read
from the one, the bytes that were written to the other, whether the first ended and whether the second was closed. -/
structure Pipe where
  phase : CopyPhase := .copying
  pending : Bytes := []
  record : Bytes := []
  firstRead : Option Nat := none
  taken : Bytes := []
  given : Bytes := []
  ended : Bool := false
  shut : Bool := false
  deriving DecidableEq, Repr

/-- crates/tlsn/src/proxy.rs:152-168 `poll_read`: the reader that records. -/
def Pipe.inspect (p : Pipe) (data : Bytes) (now : Nat) : Pipe :=
  { p with
    firstRead := if p.firstRead.isNone && decide (data.length > 0) then some now else p.firstRead
    record := p.record ++ data }

/-- One call of one of the futures of crates/tlsn/src/verifier.rs:333-343.  Results of calls that the future does not make in its phase are
ignored. -/
def Pipe.step (p : Pipe) : IoEvent → Pipe
  | .read data now =>
    if p.phase = .copying ∧ p.pending = [] then
      let q := { p.inspect data now with taken := p.taken ++ data }
      if data = [] then { q with phase := .flushing, ended := true } else { q with pending := data }
    else p
  | .wrote n =>
    if p.phase = .copying ∧ p.pending ≠ [] then
      if n = 0 then { p with phase := .failed }
      else { p with given := p.given ++ p.pending.take n, pending := p.pending.drop n }
    else p
  | .flushed => if p.phase = .flushing then { p with phase := .closing } else p
  | .closed => if p.phase = .closing then { p with phase := .done, shut := true } else p
  | .error => if p.phase = .done then p else { p with phase := .failed }

/-- The two sides of the proxy. -/
inductive Peer where
  | prover
  | server
  deriving DecidableEq, Repr

/-- Both directions: `sent` is from the prover to the server (crates/tlsn/src/verifier.rs:330, 334-337), `recv` from the server to the prover
(crates/tlsn/src/verifier.rs:331, 338-341). -/
structure Forwarding where
  sent : Pipe := {}
  recv : Pipe := {}
  deriving DecidableEq, Repr

/-- `try_join` returns as soon as one future has failed. -/
def Forwarding.stopped (f : Forwarding) : Bool := f.sent.phase == .failed || f.recv.phase == .failed

/-- One call; the peer is the one that the direction reads from. -/
def Forwarding.step (f : Forwarding) (e : Peer × IoEvent) : Forwarding :=
  if f.stopped then f else
  match e.1 with
  | .prover => { f with sent := f.sent.step e.2 }
  | .server => { f with recv := f.recv.step e.2 }

/-- A history of calls. -/
def forward (es : List (Peer × IoEvent)) : Forwarding := es.foldl Forwarding.step {}

/-- What `try_join` returns: nothing yet, an error, or the end of both futures. -/
def Forwarding.result (f : Forwarding) : Option Bool :=
  if f.stopped then some false
  else if f.sent.phase = .done ∧ f.recv.phase = .done then some true
  else none

/-! ## What holds at any time -/

/-- What a direction has done, in terms of the two sockets. -/
structure Faithful (p : Pipe) : Prop where
  /-- Exactly the bytes that were read are recorded. -/
  recorded : p.record = p.taken
  /-- They are written in order, and what has not been written yet is kept. -/
  forwarded : p.taken = p.given ++ p.pending
  /-- The other side is closed only when this side has ended and everything has been written. -/
  closes : p.shut = true → p.ended = true ∧ p.given = p.taken
  /-- The time is set with the first byte. -/
  timed : p.firstRead.isSome = true ↔ p.taken ≠ []

/-- The invariant. -/
structure PipeInv (p : Pipe) : Prop where
  recorded : p.record = p.taken
  forwarded : p.taken = p.given ++ p.pending
  drained : p.phase = .flushing ∨ p.phase = .closing ∨ p.phase = .done → p.ended = true ∧ p.pending = []
  shut : p.shut = true ↔ p.phase = .done
  timed : p.firstRead.isSome = true ↔ p.taken ≠ []

theorem PipeInv.faithful {p : Pipe} (h : PipeInv p) : Faithful p := by
  refine ⟨h.recorded, h.forwarded, fun hs => ?_, h.timed⟩
  obtain ⟨a, b⟩ := h.drained (.inr (.inr (h.shut.1 hs)))
  exact ⟨a, by rw [h.forwarded, b, List.append_nil]⟩

theorem PipeInv.init : PipeInv {} :=
  ⟨rfl, rfl, by simp, by simp, by simp⟩

theorem PipeInv.step {p : Pipe} (h : PipeInv p) (e : IoEvent) : PipeInv (p.step e) := by
  have h0 := h
  obtain ⟨h1, h2, h3, h4, h5⟩ := h
  cases e with
  | read data now =>
    unfold Pipe.step
    by_cases hp : p.phase = .copying ∧ p.pending = []
    · simp only [if_pos hp]
      obtain ⟨hc, hn⟩ := hp
      rw [hn, List.append_nil] at h2
      have hsh : p.shut = false := by
        cases hs : p.shut with
        | false => rfl
        | true => rw [h4.1 hs] at hc; cases hc
      by_cases hd : data = []
      · subst hd
        simp only [if_true, Pipe.inspect, List.append_nil]
        exact ⟨h1, by simp [h2, hn], fun _ => ⟨rfl, hn⟩, by simp [hsh], by simpa using h5⟩
      · simp only [if_neg hd, Pipe.inspect]
        refine ⟨by simp [h1], by simp [h2], by simp [hc], by simp [hsh, hc], ?_⟩
        cases hf : p.firstRead <;> simp [hd, List.length_pos_iff]
    · simp only [if_neg hp]; exact h0
  | wrote n =>
    unfold Pipe.step
    by_cases hp : p.phase = .copying ∧ p.pending ≠ []
    · simp only [if_pos hp]
      have hsh : p.shut = false := by
        cases hs : p.shut with
        | false => rfl
        | true => rw [h4.1 hs] at hp; cases hp.1
      by_cases hn : n = 0
      · simp only [if_pos hn]
        exact ⟨h1, h2, by simp, by simp [hsh], h5⟩
      · simp only [if_neg hn]
        exact ⟨h1, by simp [h2], by simp [hp.1], by simp [hsh, hp.1], h5⟩
    · simp only [if_neg hp]; exact h0
  | flushed =>
    unfold Pipe.step
    by_cases hp : p.phase = .flushing
    · simp only [if_pos hp]
      have hsh : p.shut = false := by
        cases hs : p.shut with
        | false => rfl
        | true => rw [h4.1 hs] at hp; cases hp
      exact ⟨h1, h2, fun _ => h3 (.inl hp), by simp [hsh], h5⟩
    · simp only [if_neg hp]; exact h0
  | closed =>
    unfold Pipe.step
    by_cases hp : p.phase = .closing
    · simp only [if_pos hp]
      exact ⟨h1, h2, fun _ => h3 (.inr (.inl hp)), by simp, h5⟩
    · simp only [if_neg hp]; exact h0
  | error =>
    unfold Pipe.step
    by_cases hp : p.phase = .done
    · simp only [if_pos hp]; exact h0
    · simp only [if_neg hp]
      have hsh : p.shut = false := by
        cases hs : p.shut with
        | false => rfl
        | true => exact absurd (h4.1 hs) hp
      exact ⟨h1, h2, by simp, by simp [hsh], h5⟩

theorem forward_concat (es : List (Peer × IoEvent)) (e : Peer × IoEvent) : forward (es ++ [e]) = (forward es).step e := by
  simp [forward, List.foldl_append]

theorem Forwarding.step_inv {f : Forwarding} (h : PipeInv f.sent ∧ PipeInv f.recv) (e : Peer × IoEvent) :
    PipeInv (f.step e).sent ∧ PipeInv (f.step e).recv := by
  unfold Forwarding.step
  split
  · exact h
  · split
    · exact ⟨h.1.step _, h.2⟩
    · exact ⟨h.1, h.2.step _⟩

theorem forward_inv (es : List (Peer × IoEvent)) : PipeInv (forward es).sent ∧ PipeInv (forward es).recv := by
  suffices ∀ f : Forwarding, PipeInv f.sent ∧ PipeInv f.recv →
      PipeInv (es.foldl Forwarding.step f).sent ∧ PipeInv (es.foldl Forwarding.step f).recv from
    this {} ⟨PipeInv.init, PipeInv.init⟩
  induction es with
  | nil => exact fun f h => h
  | cons e es ih => exact fun f h => ih _ (Forwarding.step_inv h e)

/-! ## C88 -/

/-- **C88** At any time, whatever the sockets do: the verifier has recorded exactly the bytes that it read from each side, and
it has written a prefix of them, in order, to the other side.  It closes a side only when the opposite side has ended and
everything has been written. -/
theorem C88_faithful (es : List (Peer × IoEvent)) : Faithful (forward es).sent ∧ Faithful (forward es).recv :=
  ⟨(forward_inv es).1.faithful, (forward_inv es).2.faithful⟩

/-- **C88** When the forwarding ends without an error, each side has received exactly what the other side sent until its end,
and that is what the verifier has recorded. -/
theorem C88_complete (es : List (Peer × IoEvent)) (h : (forward es).result = some true) :
    ∀ p, p = (forward es).sent ∨ p = (forward es).recv →
      p.record = p.taken ∧ p.given = p.taken ∧ p.ended = true ∧ p.shut = true := by
  obtain ⟨h1, h2⟩ := forward_inv es
  have hd : (forward es).sent.phase = .done ∧ (forward es).recv.phase = .done := by
    unfold Forwarding.result at h
    split at h
    · cases h
    · split at h
      · assumption
      · cases h
  intro p hp
  have key : ∀ q : Pipe, PipeInv q → q.phase = .done →
      q.record = q.taken ∧ q.given = q.taken ∧ q.ended = true ∧ q.shut = true := by
    intro q hq hqd
    obtain ⟨a, b⟩ := hq.drained (.inr (.inr hqd))
    exact ⟨hq.recorded, by rw [hq.forwarded, b, List.append_nil], a, hq.shut.2 hqd⟩
  rcases hp with rfl | rfl
  · exact key _ h1 hd.1
  · exact key _ h2 hd.2

/-- **C88** The time of a direction is that of the call which read its first byte, and it does not change after that. -/
theorem C88_time (es : List (Peer × IoEvent)) (e : Peer × IoEvent) :
    ((forward es).sent.taken = [] → (forward (es ++ [e])).sent.taken ≠ [] →
      ∃ data now, e = (.prover, .read data now) ∧ (forward (es ++ [e])).sent.taken = data ∧
        (forward (es ++ [e])).sent.firstRead = some now) ∧
    ((forward es).sent.taken ≠ [] → (forward (es ++ [e])).sent.firstRead = (forward es).sent.firstRead) := by
  rw [forward_concat]
  obtain ⟨h1, -⟩ := forward_inv es
  generalize forward es = f at h1 ⊢
  unfold Forwarding.step
  by_cases hs : f.stopped = true
  · simp only [if_pos hs]
    exact ⟨fun a b => absurd a b, fun _ => by trivial⟩
  · simp only [if_neg hs]
    obtain ⟨who, e⟩ := e
    cases who with
    | server => exact ⟨fun a b => absurd a b, fun _ => rfl⟩
    | prover =>
      simp only
      have keep : ∀ e, (f.sent.step e).taken = f.sent.taken ∧ (f.sent.step e).firstRead = f.sent.firstRead →
          (f.sent.taken = [] → (f.sent.step e).taken ≠ [] → ∃ data now, (Peer.prover, e) = (.prover, .read data now) ∧
            (f.sent.step e).taken = data ∧ (f.sent.step e).firstRead = some now) ∧
          (f.sent.taken ≠ [] → (f.sent.step e).firstRead = f.sent.firstRead) :=
        fun e h => ⟨fun a b => absurd (h.1.trans a) b, fun _ => h.2⟩
      cases e with
      | read data now =>
        unfold Pipe.step
        by_cases hp : f.sent.phase = .copying ∧ f.sent.pending = []
        · simp only [if_pos hp]
          have hf := h1.timed
          by_cases hd : data = []
          · simp only [Pipe.inspect, hd, List.append_nil]
            exact ⟨fun a b => absurd a b, fun _ => by simp⟩
          · simp only [if_neg hd, Pipe.inspect]
            refine ⟨fun a _ => ⟨data, now, rfl, by simp [a], ?_⟩, fun a => ?_⟩
            · cases hfr : f.sent.firstRead with
              | none => simp [List.length_pos_iff, hd]
              | some t => rw [hfr] at hf; exact absurd a (hf.1 rfl)
            · cases hfr : f.sent.firstRead with
              | none => rw [hfr] at hf; exact absurd (hf.2 a) (by simp)
              | some t => simp
        · simp only [if_neg hp]
          exact ⟨fun a b => absurd a b, fun _ => by trivial⟩
      | wrote n => exact keep _ (by simp only [Pipe.step]; split <;> (try split) <;> exact ⟨rfl, rfl⟩)
      | flushed => exact keep _ (by simp only [Pipe.step]; split <;> exact ⟨rfl, rfl⟩)
      | closed => exact keep _ (by simp only [Pipe.step]; split <;> exact ⟨rfl, rfl⟩)
      | error => exact keep _ (by simp only [Pipe.step]; split <;> exact ⟨rfl, rfl⟩)

/-- What a side that behaves well lets happen in one direction: it sends the data in the given pieces, each of which is written
at once, and ends. -/
def wellBehaved (who : Peer) (now : Nat) (pieces : List Bytes) : List (Peer × IoEvent) :=
  (pieces.flatMap fun d => [(who, .read d now), (who, .wrote d.length)]) ++
    [(who, .read [] now), (who, .flushed), (who, .closed)]

theorem pieces_step (f : Forwarding) (now : Nat) (pieces : List Bytes) (hp : ∀ d ∈ pieces, d ≠ [])
    (h1 : f.stopped = false) (h2 : f.recv.phase = .copying) (h3 : f.recv.pending = []) :
    ∃ p : Pipe, (wellBehaved .server now pieces).foldl Forwarding.step f = { f with recv := p } ∧ p.phase = .done ∧
      p.record = f.recv.record ++ pieces.flatten ∧ p.given = f.recv.given ++ pieces.flatten := by
  induction pieces generalizing f with
  | nil =>
    have hs : f.sent.phase ≠ .failed := fun h => by simp [Forwarding.stopped, h] at h1
    refine ⟨{ f.recv with phase := .done, ended := true, shut := true }, ?_, rfl, by simp, by simp⟩
    simp [wellBehaved, Forwarding.step, Forwarding.stopped, Pipe.step, Pipe.inspect, h2, h3, hs]
  | cons d pieces ih =>
    have hs : f.sent.phase ≠ .failed := fun h => by simp [Forwarding.stopped, h] at h1
    have hd : d ≠ [] := hp d (by simp)
    have hl : d.length ≠ 0 := by simpa using hd
    have e : (wellBehaved .server now (d :: pieces)).foldl Forwarding.step f =
        (wellBehaved .server now pieces).foldl Forwarding.step
          ((f.step (.server, .read d now)).step (.server, .wrote d.length)) := rfl
    have e2 : ∃ q : Pipe, (f.step (.server, .read d now)).step (.server, .wrote d.length) = { f with recv := q } ∧
        q.phase = .copying ∧ q.pending = [] ∧ q.record = f.recv.record ++ d ∧ q.given = f.recv.given ++ d := by
      simp [Forwarding.step, Forwarding.stopped, Pipe.step, Pipe.inspect, h2, h3, hs, hd]
    obtain ⟨q, e2, q1, q2, q3, q4⟩ := e2
    rw [e, e2]
    obtain ⟨p, a1, a2, a3, a4⟩ := ih { f with recv := q } (fun x hx => hp x (by simp [hx]))
      (by simp [Forwarding.stopped, hs, q1]) q1 q2
    exact ⟨p, a1, a2, by rw [a3, q3]; simp, by rw [a4, q4]; simp⟩

/-- The same for the other direction. -/
theorem pieces_step' (f : Forwarding) (now : Nat) (pieces : List Bytes) (hp : ∀ d ∈ pieces, d ≠ [])
    (h1 : f.stopped = false) (h2 : f.sent.phase = .copying) (h3 : f.sent.pending = []) :
    ∃ p : Pipe, (wellBehaved .prover now pieces).foldl Forwarding.step f = { f with sent := p } ∧ p.phase = .done ∧
      p.record = f.sent.record ++ pieces.flatten ∧ p.given = f.sent.given ++ pieces.flatten := by
  induction pieces generalizing f with
  | nil =>
    have hs : f.recv.phase ≠ .failed := fun h => by simp [Forwarding.stopped, h] at h1
    refine ⟨{ f.sent with phase := .done, ended := true, shut := true }, ?_, rfl, by simp, by simp⟩
    simp [wellBehaved, Forwarding.step, Forwarding.stopped, Pipe.step, Pipe.inspect, h2, h3, hs]
  | cons d pieces ih =>
    have hs : f.recv.phase ≠ .failed := fun h => by simp [Forwarding.stopped, h] at h1
    have hd : d ≠ [] := hp d (by simp)
    have hl : d.length ≠ 0 := by simpa using hd
    have e : (wellBehaved .prover now (d :: pieces)).foldl Forwarding.step f =
        (wellBehaved .prover now pieces).foldl Forwarding.step
          ((f.step (.prover, .read d now)).step (.prover, .wrote d.length)) := rfl
    have e2 : ∃ q : Pipe, (f.step (.prover, .read d now)).step (.prover, .wrote d.length) = { f with sent := q } ∧
        q.phase = .copying ∧ q.pending = [] ∧ q.record = f.sent.record ++ d ∧ q.given = f.sent.given ++ d := by
      simp [Forwarding.step, Forwarding.stopped, Pipe.step, Pipe.inspect, h2, h3, hs, hd]
    obtain ⟨q, e2, q1, q2, q3, q4⟩ := e2
    rw [e, e2]
    obtain ⟨p, a1, a2, a3, a4⟩ := ih { f with sent := q } (fun x hx => hp x (by simp [hx]))
      (by simp [Forwarding.stopped, hs, q1]) q1 q2
    exact ⟨p, a1, a2, by rw [a3, q3]; simp, by rw [a4, q4]; simp⟩

/-- **C88** If both sides behave well then the forwarding ends, whatever they send and however it is cut into pieces. -/
theorem C88_ends (now : Nat) (sent recv : List Bytes) (hs : ∀ d ∈ sent, d ≠ []) (hr : ∀ d ∈ recv, d ≠ []) :
    let f := forward (wellBehaved .prover now sent ++ wellBehaved .server now recv)
    f.result = some true ∧ f.sent.record = sent.flatten ∧ f.sent.given = sent.flatten ∧
      f.recv.record = recv.flatten ∧ f.recv.given = recv.flatten := by
  intro f
  obtain ⟨p, a1, a2, a3, a4⟩ := pieces_step' {} now sent hs rfl rfl rfl
  obtain ⟨q, b1, b2, b3, b4⟩ := pieces_step { sent := p } now recv hr (by simp [Forwarding.stopped, a2]) rfl rfl
  have e : f = ⟨p, q⟩ := by
    show (wellBehaved .prover now sent ++ wellBehaved .server now recv).foldl Forwarding.step {} = _
    rw [List.foldl_append, a1, b1]
  rw [e]
  refine ⟨by simp [Forwarding.result, Forwarding.stopped, a2, b2], a3, a4, b3, b4⟩

/-- Example for C88: two reads with a partial write between them, while the server has ended already. -/
example :
    let es : List (Peer × IoEvent) := [(.server, .read [7] 4), (.prover, .read [1, 2, 3] 5), (.prover, .wrote 2),
      (.server, .wrote 1), (.prover, .read [9] 6), (.server, .read [] 6), (.prover, .wrote 1), (.prover, .read [4] 7)]
    let f := forward es
    f.sent.record = [1, 2, 3, 4] ∧ f.sent.given = [1, 2, 3] ∧ f.sent.firstRead = some 5 ∧ f.recv.given = [7] ∧
      f.recv.shut = false ∧ f.result = none ∧
    let g := forward (es ++ [(.server, .flushed), (.server, .closed), (.prover, .wrote 1), (.prover, .read [] 8),
      (.prover, .flushed), (.prover, .closed)])
    g.result = some true ∧ g.sent.given = [1, 2, 3, 4] ∧ g.recv.shut = true := by decide

end Tlsn.Proxy
