import Verif.Protocol.Session

/-! # Properties of the session -/

namespace Tlsn.Protocol

/-! ## Split -/

/-- What holds in every state of a split session. -/
structure SplitInv (s : Split) : Prop where
  lost : s.shouldClose = true → s.told = true ∨ s.conn = false ∨ s.driver = .stored ∨ s.woken = true ∨
    (s.waker = true ∧ 0 < s.closing) ∨ s.polled = false
  told : s.told = true → s.shouldClose = true
  flag : s.shouldClose = true ↔ 0 < s.closing + s.closed
  busy : s.driver ≠ .idle → s.polled = true
  slot : s.polled = true → s.waker = true ∨ s.woken = true
  read : s.driver = .read → s.conn = true

theorem splitInv_step {s : Split} (h : SplitInv s) (c : SplitStep) : SplitInv (s.step c) := by
  obtain ⟨conn, told, sc, waker, woken, driver, closing, polled, closed, outs⟩ := s
  obtain ⟨h1, h2, h3, h4, h5, h7⟩ := h
  simp only at h1 h2 h3 h4 h5 h7
  cases c with
  | wake => exact ⟨fun _ => by simp [Split.step], h2, h3, h4, fun _ => .inr rfl, h7⟩
  | closeSet =>
    refine ⟨fun _ => ?_, fun _ => rfl, ⟨fun _ => by simp only [Split.step]; omega, fun _ => rfl⟩, h4, h5, h7⟩
    simp only [Split.step]
    cases polled with
    | false => simp
    | true => rcases h5 rfl with h | h <;> simp [h]
  | closeWake =>
    by_cases hc : closing = 0
    · simp only [Split.step, hc, if_true]
      exact ⟨fun h => by simpa [hc] using h1 h, h2, by simpa [hc] using h3, h4, h5, h7⟩
    · simp only [Split.step, hc, if_false]
      refine ⟨fun h => ?_, h2, by simp only [h3]; omega, h4, fun h => ?_, h7⟩
      · rcases h1 h with h | h | h | h | h | h
        · exact .inl h
        · exact .inr (.inl h)
        · exact .inr (.inr (.inl h))
        · exact .inr (.inr (.inr (.inl (by simp [h]))))
        · exact .inr (.inr (.inr (.inl (by simp [h.1]))))
        · exact .inr (.inr (.inr (.inr (.inr h))))
      · rcases h5 h with h | h <;> simp [h]
  | pollStart =>
    by_cases hd : driver = .idle
    · subst hd
      simp only [Split.step, if_true]
      exact ⟨fun _ => by simp, h2, h3, fun _ => rfl, fun _ => .inl rfl, fun h => nomatch h⟩
    · simp only [Split.step, hd, if_false]
      exact ⟨h1, h2, h3, h4, h5, h7⟩
  | readFlag =>
    by_cases hd : driver = .stored
    · subst hd
      simp only [Split.step, if_true]
      cases conn with
      | true =>
        simp only [if_true]
        refine ⟨fun h => ?_, fun h => ?_, h3, fun _ => h4 (fun h => nomatch h), h5, fun _ => rfl⟩
        · simp only at h; simp [h]
        · simp only [Bool.or_eq_true] at h; exact h.elim h2 id
      | false =>
        refine ⟨fun _ => .inr (.inl rfl), h2, h3, fun h => absurd rfl h, h5, fun h => nomatch h⟩
    · simp only [Split.step, hd, if_false]
      exact ⟨h1, h2, h3, h4, h5, h7⟩
  | pollConn r =>
    by_cases hd : driver = .read
    · subst hd
      simp only [Split.step, if_true]
      have h8 : sc = true → told = true ∨ conn = false ∨ woken = true ∨ (waker = true ∧ 0 < closing) ∨ polled = false := by
        intro h
        rcases h1 h with h | h | h | h | h | h
        · exact .inl h
        · exact .inr (.inl h)
        · cases h
        · exact .inr (.inr (.inl h))
        · exact .inr (.inr (.inr (.inl h)))
        · exact .inr (.inr (.inr (.inr h)))
      cases r with
      | pending =>
        exact ⟨fun h => by rcases h8 h with h | h | h | h | h <;> simp [h], h2, h3, fun h => absurd rfl h, h5, fun h => nomatch h⟩
      | error =>
        exact ⟨fun h => by rcases h8 h with h | h | h | h | h <;> simp [h], h2, h3, fun h => absurd rfl h, h5, fun h => nomatch h⟩
      | ready io => exact ⟨fun _ => .inr (.inl rfl), h2, h3, fun h => absurd rfl h, h5, fun h => nomatch h⟩
    · simp only [Split.step, hd, if_false]
      exact ⟨h1, h2, h3, h4, h5, h7⟩

theorem splitInv_run (l : List SplitStep) : SplitInv (Split.run l) := by
  have key : ∀ (l : List SplitStep) (s : Split), SplitInv s → SplitInv (l.foldl Split.step s) := by
    intro l
    induction l with
    | nil => exact fun _ h => h
    | cons c l ih => exact fun s h => ih _ (splitInv_step h c)
  exact key l _ ⟨(fun h => nomatch h), (fun h => nomatch h), by simp, (fun h => absurd rfl h), (fun h => nomatch h),
    fun h => nomatch h⟩

/-- **C98** `SessionHandle::close` is never lost.  In every interleaving of the driver with any number of threads that
close: once a `close` has returned and no other is under way, the connection was told to close or is gone, or the driver
is about to read the flag, or its task has been woken and so will be polled again, or it was never polled
at all. -/
theorem C98_close_not_lost (l : List SplitStep) (hc : 0 < (Split.run l).closed) (hn : (Split.run l).closing = 0) :
    (Split.run l).told = true ∨ (Split.run l).conn = false ∨ (Split.run l).driver = .stored ∨
      (Split.run l).woken = true ∨ (Split.run l).polled = false := by
  have h := splitInv_run l
  rcases h.lost (h.flag.2 (by omega)) with h | h | h | h | h | h
  · exact .inl h
  · exact .inr (.inl h)
  · exact .inr (.inr (.inl h))
  · exact .inr (.inr (.inr (.inl h)))
  · omega
  · exact .inr (.inr (.inr (.inr h)))

/-- **C98** Once a `close` has set its flag, the next poll of the driver tells the connection before it polls it, whatever
happens between. -/
theorem C98_next_poll_closes (l : List SplitStep) (hc : 0 < (Split.run l).closing + (Split.run l).closed)
    (hi : (Split.run l).driver = .idle) (hconn : (Split.run l).conn = true) :
    (Split.run (l ++ [.pollStart, .readFlag])).told = true := by
  have h := splitInv_run l
  have hf := h.flag.2 hc
  simp only [Split.run, List.foldl_append] at hi hconn hf ⊢
  generalize List.foldl Split.step {} l = s at *
  simp [Split.step, hi, hconn, hf]

/-- **C98** The connection is told to close only if a `close` was called. -/
theorem C98_only_if_closed (l : List SplitStep) (h : (Split.run l).told = true) : SplitStep.closeSet ∈ l := by
  have hs := (splitInv_run l).told h
  have key : ∀ (l : List SplitStep) (s : Split), s.shouldClose = false → SplitStep.closeSet ∉ l →
      (l.foldl Split.step s).shouldClose = false := by
    intro l
    induction l with
    | nil => exact fun _ h _ => h
    | cons c l ih =>
      intro s h hn
      refine ih _ ?_ (fun h' => hn (List.mem_cons_of_mem _ h'))
      cases c with
      | closeSet => exact absurd (by simp) hn
      | wake => exact h
      | pollStart => simp only [Split.step]; split <;> exact h
      | closeWake => simp only [Split.step]; split <;> exact h
      | readFlag => simp only [Split.step]; (repeat' split) <;> exact h
      | pollConn r => cases r <;> (simp only [Split.step]; split <;> exact h)
  by_cases hm : SplitStep.closeSet ∈ l
  · exact hm
  · have := key l {} rfl hm
    rw [Split.run, this] at hs
    cases hs

/-- **C98** The driver gives the channel at most once; after that it gives errors only. -/
theorem C98_channel_once (l : List SplitStep) (i j : Nat) (hij : i < j) (hi : (Split.run l).outs[i]? = some .io)
    (hj : j < (Split.run l).outs.length) : (Split.run l).outs[j]? = some .error := by
  have key : ∀ (l : List SplitStep) (s : Split), (s.driver = .read → s.conn = true) →
      (s.conn = true → DriverOut.io ∉ s.outs) →
      (∀ i j, i < j → s.outs[i]? = some .io → j < s.outs.length → s.outs[j]? = some .error) →
      ∀ i j, i < j → (l.foldl Split.step s).outs[i]? = some .io → j < (l.foldl Split.step s).outs.length →
        (l.foldl Split.step s).outs[j]? = some .error := by
    intro l
    induction l with
    | nil => exact fun _ _ _ h => h
    | cons c l ih =>
      intro s h1 h2 h3
      have hmem : ∀ i : Nat, s.outs[i]? = some .io → DriverOut.io ∈ s.outs := fun i hi => List.mem_of_getElem? hi
      have happ : ∀ (o : DriverOut), (o = .error ∨ DriverOut.io ∉ s.outs) → ∀ i j, i < j →
          (s.outs ++ [o])[i]? = some .io → j < (s.outs ++ [o]).length → (s.outs ++ [o])[j]? = some .error := by
        intro o ho i j hij hi hj
        simp only [List.length_append, List.length_cons, List.length_nil] at hj
        rw [List.getElem?_append_left (by omega)] at hi
        by_cases hjl : j < s.outs.length
        · rw [List.getElem?_append_left hjl]; exact h3 i j hij hi hjl
        · have : j = s.outs.length := by omega
          subst this
          rcases ho with rfl | ho
          · simp
          · exact absurd (hmem i hi) ho
      cases c with
      | wake => exact ih _ h1 h2 h3
      | closeSet => exact ih _ h1 h2 h3
      | closeWake =>
        refine ih _ ?_ ?_ ?_ <;> (simp only [Split.step]; split <;> assumption)
      | pollStart =>
        refine ih _ ?_ ?_ ?_ <;> (simp only [Split.step]; split)
        · exact fun h => nomatch h
        all_goals assumption
      | readFlag =>
        by_cases hd : s.driver = .stored
        · cases hcn : s.conn with
          | true =>
            refine ih _ ?_ ?_ ?_ <;> simp only [Split.step, hd, hcn, if_true]
            · exact fun _ => trivial
            · exact fun _ => h2 hcn
            · exact h3
          | false =>
            refine ih _ ?_ ?_ ?_ <;> simp only [Split.step, hd, hcn, if_true, Bool.false_eq_true, if_false]
            · exact fun h => nomatch h
            · exact fun h => nomatch h
            · exact happ _ (.inl rfl)
        · have hst : s.step .readFlag = s := by simp [Split.step, hd]
          simp only [List.foldl_cons, hst]
          exact ih _ h1 h2 h3
      | pollConn r =>
        by_cases hd : s.driver = .read
        · have hno := h2 (h1 hd)
          cases r with
          | pending =>
            refine ih _ ?_ ?_ ?_ <;> simp only [Split.step, hd, if_true]
            · exact fun h => nomatch h
            · intro _; simp [hno]
            · exact happ _ (.inr hno)
          | error =>
            refine ih _ ?_ ?_ ?_ <;> simp only [Split.step, hd, if_true]
            · exact fun h => nomatch h
            · intro _; simp [hno]
            · exact happ _ (.inr hno)
          | ready io =>
            refine ih _ ?_ ?_ ?_ <;> simp only [Split.step, hd, if_true]
            · exact fun h => nomatch h
            · exact fun h => nomatch h
            · exact happ _ (.inr hno)
        · have hst : s.step (.pollConn r) = s := by simp [Split.step, hd]
          simp only [List.foldl_cons, hst]
          exact ih _ h1 h2 h3
  exact key l {} (fun h => nomatch h) (by simp) (by simp) i j hij hi hj

/-- A run in which `close` falls between the driver's read of the flag and its poll of the connection: the task is
woken, polled again, and the channel is given. -/
example :
    let l : List SplitStep := [.pollStart, .readFlag, .closeSet, .pollConn .pending, .closeWake]
    (Split.run l).told = false ∧ (Split.run l).woken = true ∧ (Split.run l).closed = 1 ∧ (Split.run l).closing = 0 ∧
    (Split.run (l ++ [.pollStart, .readFlag, .pollConn (.ready true), .pollStart, .readFlag])).outs = [.pending, .io, .error] := by
  decide

/-! ## Unsplit -/

/-- **C99** An unsplit session gives the channel only when its connection is complete, and at most once: a call
that asks too early changes nothing, and after the channel was given every call that asks for it fails. -/
theorem C99_take_once (s : Session) (cs : List SessionCall) (i j : Nat) (hij : i < j)
    (hi : (s.run cs).2[i]? = some true) : (s.run cs).2[j]? ≠ some true := by
  have gone : ∀ (cs : List SessionCall) (j : Nat), ((⟨none⟩ : Session).run cs).2[j]? ≠ some true := by
    intro cs
    induction cs with
    | nil => simp [Session.run]
    | cons c cs ih =>
      intro j
      have hs : (⟨none⟩ : Session).step c = (⟨none⟩, false) := by cases c <;> rfl
      simp only [Session.run, hs]
      cases j with
      | zero => simp
      | succ j => simpa using ih j
  induction cs generalizing s i j with
  | nil => simp [Session.run] at hi
  | cons c cs ih =>
    obtain ⟨j, rfl⟩ : ∃ m, j = m + 1 := ⟨j - 1, by omega⟩
    simp only [Session.run, List.getElem?_cons_succ] at hi ⊢
    cases i with
    | succ i => exact ih _ i j (by omega) (by simpa using hi)
    | zero =>
      simp only [List.getElem?_cons_zero, Option.some.injEq] at hi
      have hs : (s.step c).1 = ⟨none⟩ := by
        cases c with
        | close => cases hi
        | poll a => cases hi
        | tryTake =>
          obtain ⟨conn⟩ := s
          cases conn with
          | none => cases hi
          | some c =>
            simp only [Session.step, Session.tryTake] at hi ⊢
            split at hi <;> simp_all
      rw [hs]
      exact gone cs j

/-- **C99** -/
theorem C99_take (s : Session) :
    (s.tryTake.2 = true ↔ ∃ c, s.conn = some c ∧ c.complete = true) ∧ (s.tryTake.2 = false → s.tryTake.1 = s) := by
  obtain ⟨conn⟩ := s
  cases conn with
  | none => simp [Session.tryTake]
  | some c => cases hc : c.complete <;> simp [Session.tryTake, hc]

/-- **C99** A session that is closed says so until its channel is taken; from then on it says that it is not closed. -/
theorem C99_is_closed (s : Session) : (s.isClosed = true → s.tryTake.2 = true) ∧ (s.tryTake.2 = true → s.tryTake.1.isClosed = false) := by
  obtain ⟨conn⟩ := s
  cases conn with
  | none => simp [Session.tryTake, Session.isClosed]
  | some c => cases hc : c.complete <;> simp [Session.tryTake, Session.isClosed, hc]

example : ((⟨some {}⟩ : Session).run [.tryTake, .close, .poll (fun c => { c with complete := c.told }), .tryTake, .tryTake]).2 =
    [false, false, false, true, false] := by decide

end Tlsn.Protocol
