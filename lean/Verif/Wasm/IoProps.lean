import Verif.Wasm.IoSpec

/-! # The adapter of a JavaScript channel is a faithful stream -/

namespace Tlsn.Wasm

/-! ## Events at the end of a log -/

theorem delivered_append (l m : List Ev) : delivered (l ++ m) = delivered l ++ delivered m := by
  simp [delivered]

theorem received_append (l m : List Ev) : received (l ++ m) = received l ++ received m := by
  simp [received]

theorem accepted_append (l m : List Ev) : accepted (l ++ m) = accepted l ++ accepted m := by
  simp [accepted]

theorem handed_append (l m : List Ev) : handed (l ++ m) = handed l ++ handed m := by
  simp [handed]

theorem arrived_append (l m : List Ev) : arrived (l ++ m) = arrived l ++ arrived m := by
  simp [arrived]

theorem outstanding_append (l m : List Ev) : outstanding (l ++ m) = m.foldl outstandingStep (outstanding l) := by
  simp [outstanding]

theorem ended_append (l m : List Ev) : Ended (l ++ m) ↔ Ended l ∨ Ended m := by
  constructor
  · rintro ⟨t, v, h, hv⟩
    rcases List.mem_append.1 h with h | h
    · exact .inl ⟨t, v, h, hv⟩
    · exact .inr ⟨t, v, h, hv⟩
  · rintro (⟨t, v, h, hv⟩ | ⟨t, v, h, hv⟩)
    · exact ⟨t, v, List.mem_append.2 (.inl h), hv⟩
    · exact ⟨t, v, List.mem_append.2 (.inr h), hv⟩

theorem failed_append (l m : List Ev) : Failed (l ++ m) ↔ Failed l ∨ Failed m := by
  constructor
  · rintro (⟨e, h⟩ | ⟨t, e, h⟩)
    · exact (List.mem_append.1 h).imp (fun h => .inl ⟨e, h⟩) (fun h => .inl ⟨e, h⟩)
    · exact (List.mem_append.1 h).imp (fun h => .inr ⟨t, e, h⟩) (fun h => .inr ⟨t, e, h⟩)
  · rintro ((⟨e, h⟩ | ⟨t, e, h⟩) | (⟨e, h⟩ | ⟨t, e, h⟩))
    · exact .inl ⟨e, List.mem_append.2 (.inl h)⟩
    · exact .inr ⟨t, e, List.mem_append.2 (.inl h)⟩
    · exact .inl ⟨e, List.mem_append.2 (.inr h)⟩
    · exact .inr ⟨t, e, List.mem_append.2 (.inr h)⟩

theorem closed_append (l m : List Ev) : Closed (l ++ m) ↔ Closed l ∨ Closed m := List.mem_append

/-! ## The invariant -/

/-- The state of the adapter says what happened. -/
structure Inv (a : Adapter) (log : List Ev) : Prop where
  bytes : received log ++ a.buffer = delivered log
  eof : a.eof = true ↔ Ended log
  error : a.error.isSome = true ↔ Failed log
  pending : a.pending = outstanding log
  closed : a.closed = true ↔ Closed log
  /-- While a promise is awaited, nothing is kept, and neither the end nor an error was seen. -/
  waits : a.pending = true → a.buffer = [] ∧ a.eof = false ∧ a.error = none
  /-- Not both the end and an error. -/
  one : a.eof = true → a.error = none

theorem inv_new : Inv .new [] where
  bytes := rfl
  eof := ⟨(fun h => nomatch h), (fun ⟨_, _, h, _⟩ => nomatch h)⟩
  error := ⟨(fun h => nomatch h), (fun h => by rcases h with ⟨_, h⟩ | ⟨_, _, h⟩ <;> nomatch h)⟩
  pending := rfl
  closed := ⟨(fun h => nomatch h), (fun h => nomatch h)⟩
  waits h := nomatch h
  one _ := rfl

theorem Inv.unread {a : Adapter} {log : List Ev} (h : Inv a log) : unread log = a.buffer := by
  rw [Wasm.unread, ← h.bytes, List.drop_left]

/-- What an event may be after what happened before it. -/
def Rule (pre : List Ev) : Ev → Prop
  | .jsRead _ => outstanding pre = false ∧ unread pre = [] ∧ ¬ Ended pre ∧ ¬ Failed pre
  | .jsPoll _ _ => outstanding pre = true ∧ unread pre = [] ∧ ¬ Ended pre ∧ ¬ Failed pre
  | .jsWrite _ _ => ¬ Failed pre ∧ ¬ Closed pre
  | .jsClose _ => ¬ Closed pre
  | .gotRead len task r =>
    match r with
    | .ok data => data = (unread pre).take len ∧ (unread pre = [] → Ended pre) ∧ ¬ Failed pre
    | .pending => unread pre = [] ∧ outstanding pre = true ∧ ¬ Ended pre ∧ ¬ Failed pre ∧
        ∃ p, pre = p ++ [.jsPoll task .pending]
    | .err _ => Failed pre
    | .broken => False
  | .gotWrite data r =>
    match r with
    | .ok n => n = data.length ∧ ¬ Failed pre ∧ ¬ Closed pre ∧ ∃ p f, pre = p ++ [.jsWrite data (.promise f)]
    | .pending => False
    | .err e => Failed pre ∨ ∃ p, pre = p ++ [.jsWrite data (.threw e)]
    | .broken => Closed pre ∧ ¬ Failed pre
  | .gotFlush r => r = .ok ()
  | .gotClose r =>
    match r with
    | .ok _ => Closed pre
    | .err e => ∃ p, pre = p ++ [.jsClose (.threw e)]
    | _ => False

/-- Each event is allowed after those before it. -/
def Good : List Ev → List Ev → Prop
  | _, [] => True
  | pre, e :: es => Rule pre e ∧ Good (pre ++ [e]) es

theorem Good.append {pre : List Ev} {l m : List Ev} (h : Good pre l) (h' : Good (pre ++ l) m) : Good pre (l ++ m) := by
  induction l generalizing pre with
  | nil => simpa using h'
  | cons e es ih => exact ⟨h.1, ih h.2 (by simpa using h')⟩

theorem Good.rule {pre l p q : List Ev} {e : Ev} (h : Good pre l) (hl : l = p ++ e :: q) : Rule (pre ++ p) e := by
  induction p generalizing pre l with
  | nil => subst hl; simpa using h.1
  | cons x xs ih =>
    subst hl
    have := ih h.2 rfl
    simpa using this

/-- One more event, and the adapter after it. -/
theorem Inv.snoc {a a' : Adapter} {log : List Ev} (h : Inv a log) (e : Ev)
    (hb : received log ++ received [e] ++ a'.buffer = received log ++ a.buffer ++ delivered [e])
    (he : a'.eof = true ↔ a.eof = true ∨ Ended [e])
    (hf : a'.error.isSome = true ↔ a.error.isSome = true ∨ Failed [e])
    (hp : a'.pending = outstandingStep a.pending e)
    (hc : a'.closed = true ↔ a.closed = true ∨ Closed [e])
    (hw : a'.pending = true → a'.buffer = [] ∧ a'.eof = false ∧ a'.error = none)
    (ho : a'.eof = true → a'.error = none) : Inv a' (log ++ [e]) where
  bytes := by rw [received_append, delivered_append, hb, h.bytes]
  eof := by rw [he, ended_append, h.eof]
  error := by rw [hf, failed_append, h.error]
  pending := by rw [hp, outstanding_append, h.pending]; rfl
  closed := by rw [hc, closed_append, h.closed]
  waits := hw
  one := ho

/-- The state is as before, and the event says nothing about it. -/
theorem Inv.same {a : Adapter} {log : List Ev} (h : Inv a log) (e : Ev) (hr : received [e] = [])
    (hd : delivered [e] = []) (he : ¬ Ended [e]) (hf : ¬ Failed [e]) (hp : ∀ b, outstandingStep b e = b)
    (hc : ¬ Closed [e]) : Inv a (log ++ [e]) := by
  refine h.snoc e ?_ ?_ ?_ ?_ ?_ h.waits h.one
  · rw [hr, hd]; simp
  · simp [he]
  · simp [hf]
  · rw [hp]
  · simp [hc]

theorem Inv.waker {a : Adapter} {log : List Ev} (h : Inv a log) (w : Option Nat) : Inv { a with waker := w } log :=
  ⟨h.bytes, h.eof, h.error, h.pending, h.closed, h.waits, h.one⟩

theorem Inv.not_failed {a : Adapter} {log : List Ev} (h : Inv a log) (he : a.error = none) : ¬ Failed log := by
  intro hf
  have := h.error.2 hf
  rw [he] at this
  cases this

theorem Inv.not_ended {a : Adapter} {log : List Ev} (h : Inv a log) (he : a.eof = false) : ¬ Ended log := by
  intro hf
  have := h.eof.2 hf
  rw [he] at this
  cases this

theorem Inv.not_closed {a : Adapter} {log : List Ev} (h : Inv a log) (he : a.closed = false) : ¬ Closed log := by
  intro hf
  have := h.closed.2 hf
  rw [he] at this
  cases this

/-- A read that gives what is kept. -/
theorem Inv.give {a : Adapter} {log : List Ev} (h : Inv a log) (he : a.error = none) (hp : a.pending = false)
    (hb : a.buffer = [] → a.eof = true) (len task : Nat) :
    Inv { a with buffer := a.buffer.drop len } (log ++ [.gotRead len task (.ok (a.buffer.take len))]) ∧
      Rule log (.gotRead len task (.ok (a.buffer.take len))) := by
  constructor
  · refine h.snoc _ ?_ ?_ ?_ ?_ ?_ ?_ h.one
    · simp [received, delivered]
    · simp [Ended]
    · simp [Failed]
    · simp [outstandingStep]
    · simp [Closed]
    · intro hp'
      rw [show ({ a with buffer := a.buffer.drop len } : Adapter).pending = a.pending from rfl, hp] at hp'
      cases hp'
  · refine ⟨by rw [h.unread], fun hu => ?_, h.not_failed he⟩
    rw [h.unread] at hu
    exact h.eof.1 (hb hu)

theorem pollPending_inv {a : Adapter} {log : List Ev} (h : Inv a log) (hp : a.pending = true) (len task : Nat)
    (ans : Answer) :
    Inv (a.pollPending len task ans).1
        (log ++ ((a.pollPending len task ans).2.1 ++ [.gotRead len task (a.pollPending len task ans).2.2])) ∧
      Good log ((a.pollPending len task ans).2.1 ++ [.gotRead len task (a.pollPending len task ans).2.2]) := by
  obtain ⟨hb, he, hf⟩ := h.waits hp
  have hr : ∀ ans, Rule log (.jsPoll task ans) := fun ans =>
    ⟨by rw [← h.pending, hp], by rw [h.unread, hb], h.not_ended he, h.not_failed hf⟩
  have fin : ∀ (ans : Answer) (a'' : Adapter) (r : IoPoll Bytes),
      Inv a'' (log ++ [.jsPoll task ans] ++ [.gotRead len task r]) →
        Rule (log ++ [.jsPoll task ans]) (.gotRead len task r) →
      Inv a'' (log ++ ([.jsPoll task ans] ++ [.gotRead len task r])) ∧
        Good log ([.jsPoll task ans] ++ [.gotRead len task r]) := by
    intro ans a'' r h2 h3
    exact ⟨by simpa using h2, hr ans, h3, trivial⟩
  have ended : ∀ v : Option Bytes, v = none ∨ v = some [] →
      Inv { a with pending := false, eof := true }
          (log ++ ([.jsPoll task (.value v)] ++ [.gotRead len task (.ok [])])) ∧
        Good log ([.jsPoll task (.value v)] ++ [.gotRead len task (.ok [])]) := by
    intro v hv
    have h0 : Answer.bytes (.value v) = [] := by rcases hv with rfl | rfl <;> rfl
    have hi : Inv { a with pending := false, eof := true } (log ++ [.jsPoll task (.value v)]) := by
      refine h.snoc _ ?_ ?_ ?_ rfl ?_ (fun hp => nomatch hp) (fun _ => hf)
      · simp [received, delivered, h0]
      · simp only [true_iff]
        exact .inr ⟨task, v, List.mem_singleton.2 rfl, hv⟩
      · simp [Failed]
      · simp [Closed]
    refine fin _ _ _ ?_ ⟨?_, fun _ => hi.eof.1 rfl, hi.not_failed hf⟩
    · exact hi.same _ rfl rfl (by simp [Ended]) (by simp [Failed]) (fun _ => rfl) (by simp [Closed])
    · rw [hi.unread, show ({ a with pending := false, eof := true } : Adapter).buffer = [] from hb, List.take_nil]
  match ans with
  | .value none => exact ended _ (by simp)
  | .value (some []) => exact ended _ (by simp)
  | .value (some (b :: bs)) =>
    have hi : Inv { a with pending := false, buffer := b :: bs } (log ++ [.jsPoll task (.value (some (b :: bs)))]) := by
      refine h.snoc _ ?_ ?_ ?_ ?_ ?_ (fun hp => nomatch hp) (fun _ => hf)
      · simp [received, delivered, Answer.bytes, hb]
      · simp [Ended]
      · simp [Failed]
      · rfl
      · simp [Closed]
    have hg := hi.give hf rfl (fun h => nomatch h) len task
    have hx : a.pollPending len task (.value (some (b :: bs)))
        = ({ a with pending := false, buffer := (b :: bs).drop len }, [.jsPoll task (.value (some (b :: bs)))],
          .ok ((b :: bs).take len)) := by
      simp only [Adapter.pollPending, List.isEmpty_cons, Bool.false_eq_true, if_false, hb, List.nil_append]
      congr 1
      · congr 1
        by_cases hl : len < (b :: bs).length
        · rw [if_pos (by omega), Nat.min_eq_left (by omega)]
        · rw [if_neg (by omega), List.drop_eq_nil_of_le (by omega)]
      · congr 2
        by_cases hl : len < (b :: bs).length
        · rw [Nat.min_eq_left (by omega)]
        · rw [Nat.min_eq_right (by omega), List.take_of_length_le (Nat.le_refl _), List.take_of_length_le (by omega)]
    rw [hx]
    exact fin _ _ _ hg.1 hg.2
  | .rejected e =>
    have hi : Inv { a with pending := false, error := some e } (log ++ [.jsPoll task (.rejected e)]) := by
      refine h.snoc _ ?_ ?_ ?_ ?_ ?_ (fun hp => nomatch hp) (fun h => ?_)
      · simp [received, delivered, Answer.bytes]
      · simp [Ended]
      · simp only [Option.isSome_some, true_iff]
        exact .inr (.inr ⟨task, e, List.mem_singleton.2 rfl⟩)
      · rfl
      · simp [Closed]
      · rw [show ({ a with pending := false, error := some e } : Adapter).eof = a.eof from rfl, he] at h
        cases h
    refine fin _ _ _ ?_ (hi.error.1 rfl)
    exact hi.same _ rfl rfl (by simp [Ended]) (by simp [Failed]) (fun _ => rfl) (by simp [Closed])
  | .pending =>
    have hi : Inv a (log ++ [.jsPoll task .pending]) :=
      h.same _ rfl rfl (by simp [Ended]) (by simp [Failed]) (fun _ => rfl) (by simp [Closed])
    refine fin _ _ _ ?_ ⟨by rw [hi.unread, hb], by rw [← hi.pending, hp], hi.not_ended he, hi.not_failed hf, log, rfl⟩
    exact hi.same _ rfl rfl (by simp [Ended]) (by simp [Failed]) (fun _ => rfl) (by simp [Closed])

theorem pollRead_inv {a : Adapter} {log : List Ev} (h : Inv a log) (len task : Nat) (call : Call) (ans : Answer) :
    Inv (a.pollRead len task call ans).1
        (log ++ ((a.pollRead len task call ans).2.1 ++ [.gotRead len task (a.pollRead len task call ans).2.2])) ∧
      Good log ((a.pollRead len task call ans).2.1 ++ [.gotRead len task (a.pollRead len task call ans).2.2]) := by
  unfold Adapter.pollRead
  match hf : a.error with
  | some e =>
    exact ⟨h.same _ rfl rfl (by simp [Ended]) (by simp [Failed]) (fun _ => rfl) (by simp [Closed]),
      h.error.1 (by rw [hf]; rfl), trivial⟩
  | none =>
    dsimp only
    by_cases hb : a.buffer = []
    · rw [if_neg (by simp [hb])]
      by_cases he : a.eof = true
      · rw [if_pos he]
        have hp : a.pending = false := by
          cases hp : a.pending with
          | false => rfl
          | true => rw [(h.waits hp).2.1] at he; cases he
        have hg := h.give hf hp (fun _ => he) len task
        rw [hb] at hg
        refine ⟨?_, by simpa using hg.2, trivial⟩
        have := hg.1
        simp only [List.drop_nil, List.take_nil] at this
        rw [show a = { a with buffer := [] } by rw [← hb]]
        exact this
      · have he : a.eof = false := by simpa using he
        rw [if_neg (by simp [he])]
        have h := h.waker (some task)
        by_cases hp : a.pending = true
        · rw [if_pos hp, ← hf]
          exact pollPending_inv h hp len task ans
        · have hp : a.pending = false := by simpa using hp
          rw [if_neg (by simp [hp]), ← hf]
          have hr : ∀ c, Rule log (.jsRead c) := fun c =>
            ⟨by rw [← h.pending]; exact hp, by rw [h.unread]; exact hb, h.not_ended he, h.not_failed hf⟩
          match call with
          | .promise =>
            have hi : Inv { a with waker := some task, pending := true } (log ++ [.jsRead .promise]) := by
              refine h.snoc _ ?_ ?_ ?_ rfl ?_ (fun _ => ⟨hb, he, hf⟩) h.one
              · simp [received, delivered]
              · simp [Ended]
              · simp [Failed]
              · simp [Closed]
            have hg := pollPending_inv hi rfl len task ans
            refine ⟨?_, hr _, ?_⟩
            · have := hg.1
              simpa using this
            · exact hg.2
          | .threw e =>
            have hi : Inv { a with waker := some task, error := some e } (log ++ [.jsRead (.threw e)]) := by
              refine h.snoc _ ?_ ?_ ?_ rfl ?_ (fun hp' => ?_) (fun he' => ?_)
              · simp [received, delivered]
              · simp [Ended]
              · simp only [Option.isSome_some, true_iff]
                exact .inr (.inl ⟨e, List.mem_singleton.2 rfl⟩)
              · simp [Closed]
              · rw [show ({ a with waker := some task, error := some e } : Adapter).pending = a.pending from rfl,
                  hp] at hp'
                cases hp'
              · rw [show ({ a with waker := some task, error := some e } : Adapter).eof = a.eof from rfl, he] at he'
                cases he'
            refine ⟨?_, hr _, hi.error.1 rfl, trivial⟩
            have := hi.same (.gotRead len task (.err e)) rfl rfl (by simp [Ended]) (by simp [Failed]) (fun _ => rfl)
              (by simp [Closed])
            simpa using this
    · rw [if_pos (by simpa using hb)]
      have hp : a.pending = false := by
        cases hp : a.pending with
        | false => rfl
        | true => exact absurd (h.waits hp).1 hb
      have hg := h.give hf hp (fun h => absurd h hb) len task
      have ht : a.buffer.take (min len a.buffer.length) = a.buffer.take len := by
        rw [← List.take_take, List.take_length]
      have hd : a.buffer.drop (min len a.buffer.length) = a.buffer.drop len := by
        by_cases hl : len < a.buffer.length
        · rw [Nat.min_eq_left (by omega)]
        · rw [Nat.min_eq_right (by omega), List.drop_length, List.drop_eq_nil_of_le (by omega)]
      simp only [ht, hd, ← hf]
      exact ⟨hg.1, hg.2, trivial⟩

/-- An operation keeps the invariant, and what happens is allowed. -/
theorem step_inv {a : Adapter} {log : List Ev} (h : Inv a log) (o : Op) :
    Inv (a.step o).1 (log ++ (a.step o).2) ∧ Good log (a.step o).2 := by
  match o with
  | .read len task call ans => exact pollRead_inv h len task call ans
  | .write data call =>
    simp only [Adapter.step, Adapter.pollWrite]
    match hf : a.error with
    | some e =>
      exact ⟨h.same _ rfl rfl (by simp [Ended]) (by simp [Failed]) (fun _ => rfl) (by simp [Closed]),
        .inl (h.error.1 (by rw [hf]; rfl)), trivial⟩
    | none =>
      dsimp only
      by_cases hc : a.closed = true
      · rw [if_pos hc]
        exact ⟨h.same _ rfl rfl (by simp [Ended]) (by simp [Failed]) (fun _ => rfl) (by simp [Closed]),
          ⟨h.closed.1 hc, h.not_failed hf⟩, trivial⟩
      · have hc : a.closed = false := by simpa using hc
        rw [if_neg (by simp [hc])]
        have hi : ∀ c, Inv a (log ++ [.jsWrite data c]) := fun c =>
          h.same _ rfl rfl (by simp [Ended]) (by simp [Failed]) (fun _ => rfl) (by simp [Closed])
        have hr : ∀ c, Rule log (.jsWrite data c) := fun c => ⟨h.not_failed hf, h.not_closed hc⟩
        match call with
        | .promise f =>
          refine ⟨?_, hr _, ⟨rfl, (hi _).not_failed hf, (hi _).not_closed hc, log, f, rfl⟩, trivial⟩
          have := (hi (.promise f)).same (.gotWrite data (.ok data.length)) rfl rfl (by simp [Ended]) (by simp [Failed])
            (fun _ => rfl) (by simp [Closed])
          simpa using this
        | .threw e =>
          refine ⟨?_, hr _, .inr ⟨log, rfl⟩, trivial⟩
          have := (hi (.threw e)).same (.gotWrite data (.err e)) rfl rfl (by simp [Ended]) (by simp [Failed])
            (fun _ => rfl) (by simp [Closed])
          simpa using this
  | .flush =>
    exact ⟨h.same _ rfl rfl (by simp [Ended]) (by simp [Failed]) (fun _ => rfl) (by simp [Closed]), rfl, trivial⟩
  | .close call =>
    simp only [Adapter.step, Adapter.pollClose]
    by_cases hc : a.closed = true
    · rw [if_pos hc]
      exact ⟨h.same _ rfl rfl (by simp [Ended]) (by simp [Failed]) (fun _ => rfl) (by simp [Closed]),
        h.closed.1 hc, trivial⟩
    · have hc : a.closed = false := by simpa using hc
      rw [if_neg (by simp [hc])]
      match call with
      | .promise =>
        have hi : Inv { a with closed := true } (log ++ [.jsClose .promise]) := by
          refine h.snoc _ ?_ ?_ ?_ rfl ?_ h.waits h.one
          · simp [received, delivered]
          · simp [Ended]
          · simp [Failed]
          · simp [Closed]
        refine ⟨?_, h.not_closed hc, hi.closed.1 rfl, trivial⟩
        have := hi.same (.gotClose (.ok ())) rfl rfl (by simp [Ended]) (by simp [Failed]) (fun _ => rfl)
          (by simp [Closed])
        simpa using this
      | .threw e =>
        have hi : Inv a (log ++ [.jsClose (.threw e)]) :=
          h.same _ rfl rfl (by simp [Ended]) (by simp [Failed]) (fun _ => rfl) (by simp [Closed])
        refine ⟨?_, h.not_closed hc, ⟨log, rfl⟩, trivial⟩
        have := hi.same (.gotClose (.err e)) rfl rfl (by simp [Ended]) (by simp [Failed]) (fun _ => rfl)
          (by simp [Closed])
        simpa using this

theorem run_inv {a : Adapter} {log : List Ev} (h : Inv a log) (os : List Op) :
    Inv (a.run os).1 (log ++ (a.run os).2) ∧ Good log (a.run os).2 := by
  induction os generalizing a log with
  | nil => exact ⟨by simpa [Adapter.run] using h, trivial⟩
  | cons o os ih =>
    have h1 := step_inv h o
    have h2 := ih h1.1
    exact ⟨by simpa [Adapter.run] using h2.1, h1.2.append h2.2⟩

theorem run_new (os : List Op) : Inv (Adapter.new.run os).1 (Adapter.new.run os).2 ∧ Good [] (Adapter.new.run os).2 := by
  simpa using run_inv inv_new os

theorem rule_of {os : List Op} {pre post : List Ev} {e : Ev} (h : (Adapter.new.run os).2 = pre ++ e :: post) :
    Rule pre e := by
  simpa using (run_new os).2.rule h

theorem unread_prefix {os : List Op} {pre post : List Ev} (h : (Adapter.new.run os).2 = pre ++ post) :
    received pre <+: delivered pre := by
  have key : ∀ (l pre : List Ev), Good pre l → received pre <+: delivered pre →
      ∀ p q, l = p ++ q → received (pre ++ p) <+: delivered (pre ++ p) := by
    intro l
    induction l with
    | nil =>
      intro pre _ h p q hl
      have := (List.append_eq_nil_iff.1 hl.symm).1
      subst this
      simpa using h
    | cons e es ih =>
      intro pre hg h p q hl
      match p with
      | [] => simpa using h
      | x :: xs =>
        obtain ⟨rfl, hl'⟩ := List.cons_eq_cons.1 hl
        have hn : received (pre ++ [e]) <+: delivered (pre ++ [e]) := by
          rw [received_append, delivered_append]
          have keep : received [e] = [] → received pre ++ received [e] <+: delivered pre ++ delivered [e] := by
            intro h0
            rw [h0, List.append_nil]
            exact h.trans (List.prefix_append _ _)
          match e, hg.1 with
          | .gotRead len task (.ok data), hr =>
            rw [show received [.gotRead len task (.ok data)] = data by simp [received],
              show delivered [.gotRead len task (.ok data)] = [] from rfl, List.append_nil, hr.1]
            obtain ⟨t, ht⟩ := h
            have : unread pre = t := by rw [unread, ← ht, List.drop_left]
            rw [this, ← ht]
            exact List.prefix_append_right_inj _ |>.2 (List.take_prefix _ _)
          | .gotRead _ _ .pending, _ => exact keep rfl
          | .gotRead _ _ (.err _), _ => exact keep rfl
          | .gotRead _ _ .broken, _ => exact keep rfl
          | .jsRead _, _ => exact keep rfl
          | .jsPoll _ _, _ => exact keep rfl
          | .jsWrite _ _, _ => exact keep rfl
          | .jsClose _, _ => exact keep rfl
          | .gotWrite _ _, _ => exact keep rfl
          | .gotFlush _, _ => exact keep rfl
          | .gotClose _, _ => exact keep rfl
        have := ih (pre ++ [e]) hg.2 hn xs q hl'
        simpa using this
  simpa using key _ [] (run_new os).2 (List.prefix_refl _) pre post h

/-! ## C112: reading -/

/-- **C112**: at any time, for any operations and any answers of the JavaScript object, what the reader has got is a
beginning of what the object has given: no byte is lost, repeated or moved. -/
theorem C112_order (os : List Op) (pre post : List Ev) (h : (Adapter.new.run os).2 = pre ++ post) :
    received pre <+: delivered pre := unread_prefix h

/-- **C112**: a read that succeeds gives the next bytes, as many as there are and fit the buffer; none, with room in the
buffer, only at the end of the stream, when everything was read. -/
theorem C112_next (os : List Op) (pre post : List Ev) (len task : Nat) (data : Bytes)
    (h : (Adapter.new.run os).2 = pre ++ .gotRead len task (.ok data) :: post) :
    data = (unread pre).take len ∧ ¬ Failed pre ∧
      (0 < len → data = [] → Ended pre ∧ received pre = delivered pre) := by
  have hr := rule_of h
  refine ⟨hr.1, hr.2.2, fun hl hd => ?_⟩
  have hu : unread pre = [] := by
    have h1 : (unread pre).take len = [] := by rw [← hr.1, hd]
    rcases List.take_eq_nil_iff.1 h1 with h1 | h1
    · omega
    · exact h1
  refine ⟨hr.2.1 hu, ?_⟩
  obtain ⟨t, ht⟩ := C112_order os _ _ h
  have : t = [] := by rw [← hu, unread, ← ht, List.drop_left]
  rw [← ht, this, List.append_nil]

/-- **C112**: a read waits only if the reader has got everything so far, the stream has neither ended nor failed, and
the promise of a read is open that was polled just then for the waiting task: this task will be woken. -/
theorem C112_waits (os : List Op) (pre post : List Ev) (len task : Nat)
    (h : (Adapter.new.run os).2 = pre ++ .gotRead len task .pending :: post) :
    unread pre = [] ∧ ¬ Ended pre ∧ ¬ Failed pre ∧ outstanding pre = true ∧
      ∃ p, pre = p ++ [.jsPoll task .pending] := by
  have hr := rule_of h
  exact ⟨hr.1, hr.2.2.1, hr.2.2.2.1, hr.2.1, hr.2.2.2.2⟩

/-- **C112**: the object is asked for more only when the reader has got everything, the last read of the object is
settled, and the stream has neither ended nor failed. -/
theorem C112_asks (os : List Op) (pre post : List Ev) (c : Call)
    (h : (Adapter.new.run os).2 = pre ++ .jsRead c :: post) :
    outstanding pre = false ∧ unread pre = [] ∧ ¬ Ended pre ∧ ¬ Failed pre := rule_of h

/-- **C112**: once a read of the object has failed, every read and write fails, and nothing more is asked of the object than that
it closes. -/
theorem C112_failed (os : List Op) (pre post : List Ev) (e : Ev)
    (h : (Adapter.new.run os).2 = pre ++ e :: post) (hf : Failed pre) :
    match e with
    | .gotRead _ _ r => ∃ x, r = .err x
    | .gotWrite _ r => ∃ x, r = .err x
    | .jsRead _ => False
    | .jsPoll _ _ => False
    | .jsWrite _ _ => False
    | _ => True := by
  have hr := rule_of h
  match e, hr with
  | .gotRead _ _ (.ok _), hr => exact absurd hf hr.2.2
  | .gotRead _ _ .pending, hr => exact absurd hf hr.2.2.2.1
  | .gotRead _ _ (.err x), _ => exact ⟨x, rfl⟩
  | .gotRead _ _ .broken, hr => exact hr.elim
  | .gotWrite _ (.ok _), hr => exact absurd hf hr.2.1
  | .gotWrite _ (.err x), _ => exact ⟨x, rfl⟩
  | .gotWrite _ .pending, hr => exact hr.elim
  | .gotWrite _ .broken, hr => exact absurd hf hr.2
  | .jsRead _, hr => exact absurd hf hr.2.2.2
  | .jsPoll _ _, hr => exact absurd hf hr.2.2.2
  | .jsWrite _ _, hr => exact absurd hf hr.1
  | .jsClose _, _ => trivial
  | .gotFlush _, _ => trivial
  | .gotClose _, _ => trivial

/-- An end and a failure exclude each other, at any time. -/
theorem not_both {os : List Op} {pre post : List Ev} (h : (Adapter.new.run os).2 = pre ++ post) :
    ¬ (Ended pre ∧ Failed pre) := by
  rintro ⟨⟨t, v, hm, hv⟩, hf⟩
  obtain ⟨p, q, rfl⟩ := List.append_of_mem hm
  have h1 := rule_of (os := os) (pre := p) (post := q ++ post) (e := .jsPoll t (.value v)) (by rw [h]; simp)
  have late : ∀ e, e ∈ q → (∀ p', Ended p' → ¬ Rule p' e) → False := by
    intro e he hn
    obtain ⟨x, y, rfl⟩ := List.append_of_mem he
    refine hn (p ++ .jsPoll t (.value v) :: x) ⟨t, v, by simp, hv⟩ ?_
    exact rule_of (os := os) (post := y ++ post) (by rw [h]; simp)
  rcases hf with ⟨e, he⟩ | ⟨t', e, he⟩
  · rcases List.mem_append.1 he with he | he
    · exact h1.2.2.2 (.inl ⟨e, he⟩)
    · rcases List.mem_cons.1 he with he | he
      · cases he
      · exact late _ he (fun p' hp hr => hr.2.2.1 hp)
  · rcases List.mem_append.1 he with he | he
    · exact h1.2.2.2 (.inr ⟨t', e, he⟩)
    · rcases List.mem_cons.1 he with he | he
      · cases he
      · exact late _ he (fun p' hp hr => hr.2.2.1 hp)

/-- **C112**: once the object has said that its stream ends, reads give the bytes that are left and then none, for ever:
no read waits or fails, and the object is not asked again. -/
theorem C112_end (os : List Op) (pre post : List Ev) (e : Ev)
    (h : (Adapter.new.run os).2 = pre ++ e :: post) (he : Ended pre) :
    match e with
    | .gotRead len _ r => r = .ok ((unread pre).take len)
    | .jsRead _ => False
    | .jsPoll _ _ => False
    | _ => True := by
  have hr := rule_of h
  match e, hr with
  | .gotRead _ _ (.ok _), hr => exact congrArg IoPoll.ok hr.1
  | .gotRead _ _ .pending, hr => exact absurd he hr.2.2.1
  | .gotRead _ _ (.err x), hr => exact absurd ⟨he, hr⟩ (not_both h)
  | .gotRead _ _ .broken, hr => exact hr.elim
  | .jsRead _, hr => exact absurd he hr.2.2.1
  | .jsPoll _ _, hr => exact absurd he hr.2.2.1
  | .gotWrite _ _, _ => trivial
  | .jsWrite _ _, _ => trivial
  | .jsClose _, _ => trivial
  | .gotFlush _, _ => trivial
  | .gotClose _, _ => trivial

/-- **C112**: hyper gets the bytes of the stream below after those it has, and its buffer is not overfilled. -/
theorem C112_hyper (inner : Nat → IoPoll Bytes) (hin : ∀ n d, inner n = .ok d → d.length ≤ n) (b : ReadBuf)
    (hb : b.filled.length ≤ b.size) :
    (hyperRead inner b).1.size = b.size ∧ (hyperRead inner b).1.filled.length ≤ b.size ∧
      match inner (b.size - b.filled.length) with
      | .ok d => hyperRead inner b = (⟨b.filled ++ d, b.size⟩, .ok ())
      | .pending => hyperRead inner b = (b, .pending)
      | .err e => hyperRead inner b = (b, .err e)
      | .broken => hyperRead inner b = (b, .broken) := by
  unfold hyperRead
  match h : inner (b.size - b.filled.length) with
  | .ok d =>
    have := hin _ _ h
    refine ⟨rfl, ?_, rfl⟩
    simp only [List.length_append]
    omega
  | .pending => exact ⟨rfl, hb, rfl⟩
  | .err e => exact ⟨rfl, hb, rfl⟩
  | .broken => exact ⟨rfl, hb, rfl⟩

/-- **C112**: the adapter is such a stream below: a read gives at most what fits. -/
theorem C112_hyper_adapter (os : List Op) (task : Nat) (call : Call) (ans : Answer) (n : Nat) (d : Bytes)
    (hd : ((Adapter.new.run os).1.pollRead n task call ans).2.2 = .ok d) : d.length ≤ n := by
  have hg := (pollRead_inv (run_new os).1 n task call ans).2
  rw [hd] at hg
  have hr := hg.rule rfl
  rw [hr.1]
  exact List.length_take_le _ _

/-! ## C113: writing -/

/-- **C113**: a write that succeeds has given exactly its bytes to the object, just then, in one call that did not
throw; it counts all of them. A write that fails has a cause: a failed read before, the exception of the object, or that
the stream was closed. No write waits. -/
theorem C113_write_partial (os : List Op) (pre post : List Ev) (data : Bytes) (r : IoPoll Nat)
    (h : (Adapter.new.run os).2 = pre ++ .gotWrite data r :: post) :
    match r with
    | .ok n => n = data.length ∧ ¬ Failed pre ∧ ¬ Closed pre ∧ ∃ p f, pre = p ++ [.jsWrite data (.promise f)]
    | .err e => Failed pre ∨ ∃ p, pre = p ++ [.jsWrite data (.threw e)]
    | .broken => Closed pre
    | .pending => False := by
  have hr := rule_of h
  match r, hr with
  | .ok _, hr => exact hr
  | .err _, hr => exact hr
  | .broken, hr => exact hr.1
  | .pending, hr => exact hr.elim

/-- **C113**: the object is closed at most once, and gets nothing after that. -/
theorem C113_closed (os : List Op) (pre post : List Ev) (e : Ev)
    (h : (Adapter.new.run os).2 = pre ++ e :: post) (hc : Closed pre) :
    match e with
    | .jsClose _ => False
    | .jsWrite _ _ => False
    | .gotClose r => r = .ok ()
    | _ => True := by
  have hr := rule_of h
  match e, hr with
  | .jsClose _, hr => exact hr hc
  | .jsWrite _ _, hr => exact hr.2 hc
  | .gotClose (.ok _), _ => rfl
  | .gotClose (.err x), hr =>
    obtain ⟨p, rfl⟩ := hr
    have := rule_of (os := os) (pre := p) (e := .jsClose (.threw x)) (post := .gotClose (.err x) :: post)
      (by rw [h]; simp)
    refine absurd ?_ this
    simpa [Closed] using hc
  | .gotClose .pending, hr => exact hr.elim
  | .gotClose .broken, hr => exact hr.elim
  | .jsRead _, _ => trivial
  | .jsPoll _ _, _ => trivial
  | .gotRead _ _ _, _ => trivial
  | .gotWrite _ _, _ => trivial
  | .gotFlush _, _ => trivial

theorem step_written (a : Adapter) (o : Op) :
    accepted (a.step o).2 = handed (a.step o).2 := by
  match o with
  | .read len task call ans =>
    have hx : ∀ (b : Adapter), accepted (b.pollPending len task ans).2.1 = [] ∧
        handed (b.pollPending len task ans).2.1 = [] := by
      intro b
      unfold Adapter.pollPending
      match ans with
      | .value none => exact ⟨rfl, rfl⟩
      | .value (some bytes) =>
        dsimp only
        by_cases hb : bytes.isEmpty = true
        · rw [if_pos hb]; exact ⟨rfl, rfl⟩
        · rw [if_neg hb]; exact ⟨rfl, rfl⟩
      | .rejected e => exact ⟨rfl, rfl⟩
      | .pending => exact ⟨rfl, rfl⟩
    have hy : accepted (a.pollRead len task call ans).2.1 = [] ∧ handed (a.pollRead len task call ans).2.1 = [] := by
      unfold Adapter.pollRead
      match a.error with
      | some e => exact ⟨rfl, rfl⟩
      | none =>
        dsimp only
        split
        · exact ⟨rfl, rfl⟩
        · split
          · exact ⟨rfl, rfl⟩
          · split
            · exact hx _
            · match call with
              | .promise => exact hx _
              | .threw e => exact ⟨rfl, rfl⟩
    show accepted ((a.pollRead len task call ans).2.1 ++ [.gotRead len task (a.pollRead len task call ans).2.2])
      = handed ((a.pollRead len task call ans).2.1 ++ [.gotRead len task (a.pollRead len task call ans).2.2])
    rw [accepted_append, handed_append, hy.1, hy.2]
    rfl
  | .write data call =>
    simp only [Adapter.step, Adapter.pollWrite]
    match a.error with
    | some e => rfl
    | none =>
      dsimp only
      split
      · rfl
      · match call with
        | .promise f => simp [accepted, handed]
        | .threw e => rfl
  | .flush => rfl
  | .close call =>
    simp only [Adapter.step, Adapter.pollClose]
    split
    · rfl
    · match call with
      | .promise => rfl
      | .threw e => rfl

/-- **C113**: what was reported as written is what the object was given, in the same order; if the object keeps all its
promises, this is what goes over the channel. -/
theorem C113_order_partial (os : List Op) :
    accepted (Adapter.new.run os).2 = handed (Adapter.new.run os).2 ∧
      ((∀ d, .jsWrite d (.promise false) ∉ (Adapter.new.run os).2) →
        arrived (Adapter.new.run os).2 = accepted (Adapter.new.run os).2) := by
  have key : ∀ a : Adapter, accepted (a.run os).2 = handed (a.run os).2 := by
    induction os with
    | nil => exact fun _ => rfl
    | cons o os ih =>
      intro a
      show accepted ((a.step o).2 ++ _) = handed ((a.step o).2 ++ _)
      rw [accepted_append, handed_append, step_written, ih]
  refine ⟨key _, fun hk => ?_⟩
  rw [key]
  generalize (Adapter.new.run os).2 = log at hk
  induction log with
  | nil => rfl
  | cons e es ih =>
    have ih := ih (fun d hd => hk d (List.mem_cons_of_mem _ hd))
    rw [show e :: es = [e] ++ es from rfl, arrived_append, handed_append, ih]
    congr 1
    match e, hk with
    | .jsWrite d (.promise true), _ => rfl
    | .jsWrite d (.promise false), hk => exact absurd List.mem_cons_self (hk d)
    | .jsWrite _ (.threw _), _ => rfl
    | .jsRead _, _ => rfl
    | .jsPoll _ _, _ => rfl
    | .jsClose _, _ => rfl
    | .gotRead _ _ _, _ => rfl
    | .gotWrite _ _, _ => rfl
    | .gotFlush _, _ => rfl
    | .gotClose _, _ => rfl

/-- The operation, with all the promises of writes fulfilled. -/
def Op.keep : Op → Op
  | .write data (.promise _) => .write data (.promise true)
  | o => o

/-- What the stream's user sees of an event. -/
def Ev.seen : Ev → Option Ev
  | .gotRead n t r => some (.gotRead n t r)
  | .gotWrite d r => some (.gotWrite d r)
  | .gotFlush r => some (.gotFlush r)
  | .gotClose r => some (.gotClose r)
  | _ => none

/-- **C113**, the other half is false: whether the promises of the writes are fulfilled or rejected makes no difference to
what any operation returns, so no error ever tells of a write that was lost. -/
theorem C113_blind (os : List Op) :
    (Adapter.new.run os).2.filterMap Ev.seen = (Adapter.new.run (os.map Op.keep)).2.filterMap Ev.seen := by
  have hs : ∀ (a : Adapter) (o : Op), (a.step o).1 = (a.step o.keep).1 ∧
      (a.step o).2.filterMap Ev.seen = (a.step o.keep).2.filterMap Ev.seen := by
    intro a o
    match o with
    | .read _ _ _ _ => exact ⟨rfl, rfl⟩
    | .flush => exact ⟨rfl, rfl⟩
    | .close _ => exact ⟨rfl, rfl⟩
    | .write _ (.threw _) => exact ⟨rfl, rfl⟩
    | .write data (.promise f) =>
      simp only [Op.keep, Adapter.step, Adapter.pollWrite]
      match a.error with
      | some e => exact ⟨rfl, rfl⟩
      | none =>
        dsimp only
        split
        · exact ⟨rfl, rfl⟩
        · exact ⟨rfl, rfl⟩
  have key : ∀ a : Adapter, (a.run os).2.filterMap Ev.seen = (a.run (os.map Op.keep)).2.filterMap Ev.seen := by
    induction os with
    | nil => exact fun _ => rfl
    | cons o os ih =>
      intro a
      show ((a.step o).2 ++ ((a.step o).1.run os).2).filterMap Ev.seen
        = ((a.step o.keep).2 ++ ((a.step o.keep).1.run (os.map Op.keep)).2).filterMap Ev.seen
      rw [List.filterMap_append, List.filterMap_append, (hs a o).2, ih, (hs a o).1]
  exact key _

/-- **C113**, the full property is false: a flush that succeeds, with no error reported, does not mean that what was
written has arrived.  Here the first of two writes is lost, and the other side gets a stream with a gap. -/
theorem C113_lost : ∃ os : List Op, ¬ FlushMeansArrived (Adapter.new.run os).2 ∧ ¬ Reported (Adapter.new.run os).2 ∧
    arrived (Adapter.new.run os).2 = [2] ∧ accepted (Adapter.new.run os).2 = [1, 2] := by
  refine ⟨[.write [1] (.promise false), .write [2] (.promise true), .flush, .close .promise], ?_, ?_, rfl, rfl⟩
  · intro h
    have := h [.jsWrite [1] (.promise false), .gotWrite [1] (.ok 1), .jsWrite [2] (.promise true),
      .gotWrite [2] (.ok 1)] [.jsClose .promise, .gotClose (.ok ())] rfl (by simp [Reported])
    exact absurd this (by decide)
  · simp [Reported, Adapter.run, Adapter.step, Adapter.pollWrite, Adapter.pollFlush, Adapter.pollClose, Adapter.new]

/-! ## Both together -/

/-- **C112**: bytes written on one side of a channel and read on the other: if the channel gives to its reader what it
was given by its writer, in pieces of any size, then what one party has read is a beginning of what the other wrote. -/
theorem C112_channel (writer reader : List Op)
    (channel : delivered (Adapter.new.run reader).2 <+: handed (Adapter.new.run writer).2) :
    received (Adapter.new.run reader).2 <+: accepted (Adapter.new.run writer).2 := by
  rw [(C113_order_partial writer).1]
  exact (C112_order reader _ [] (by simp)).trans channel

/-! ## A case -/

/-- A read that waits, gets five bytes for a buffer of two, a write, the end, and close. -/
def exampleOps : List Op :=
  [.read 2 7 .promise .pending, .read 2 7 .promise (.value (some [1, 2, 3, 4, 5])), .write [9, 9] (.promise true),
    .read 2 7 .promise .pending, .read 2 7 .promise .pending, .read 2 7 .promise (.value none), .read 2 7 .promise .pending,
    .flush, .close .promise, .write [8] (.promise true)]

example : (Adapter.new.run exampleOps).2 =
    [.jsRead .promise, .jsPoll 7 .pending, .gotRead 2 7 .pending,
      .jsPoll 7 (.value (some [1, 2, 3, 4, 5])), .gotRead 2 7 (.ok [1, 2]),
      .jsWrite [9, 9] (.promise true), .gotWrite [9, 9] (.ok 2),
      .gotRead 2 7 (.ok [3, 4]), .gotRead 2 7 (.ok [5]),
      .jsRead .promise, .jsPoll 7 (.value none), .gotRead 2 7 (.ok []),
      .gotRead 2 7 (.ok []), .gotFlush (.ok ()), .jsClose .promise, .gotClose (.ok ()), .gotWrite [8] .broken] := by
  decide

/-- A failed read makes the later ones fail. -/
example : (Adapter.new.run [.read 4 1 .promise (.rejected 5), .read 4 1 .promise (.value (some [1])),
      .write [1] (.promise true), .close .promise]).2 =
    [.jsRead .promise, .jsPoll 1 (.rejected 5), .gotRead 4 1 (.err 5), .gotRead 4 1 (.err 5), .gotWrite [1] (.err 5),
      .jsClose .promise, .gotClose (.ok ())] := by
  decide

end Tlsn.Wasm
