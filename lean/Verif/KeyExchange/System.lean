import Verif.KeyExchange.Lemmas
import Verif.Prf.System
import Mathlib.Data.List.Induction

/-! # Whole runs of the key exchange -/

namespace Tlsn.Kex

open Hmac (VecRef Ref Vm Env)

/-! ## The references of an exchange -/

/-- The reference to an input of 32 bytes. -/
def inp (n : Nat) : VecRef := ⟨some n, 32, Ref.input n 32⟩

/-- The output of the circuit for the inputs from `n` on. -/
def outAt (A : AddMod) (n : Nat) (out : Bytes × Bytes × Bytes → Bytes) : VecRef :=
  circuitOut A (inp n) (inp (n + 1)) (inp (n + 2)) (inp (n + 3)) (inp (n + 4)) out

/-- The references that are allocated from `n` on. -/
def slotsAt (A : AddMod) (n : Nat) : Slots :=
  ⟨inp n, inp (n + 1), inp (n + 2), inp (n + 3), outAt A n (·.2.2)⟩

/-- The machine after allocation. -/
def vmAlloc (vm : Vm) : Vm :=
  { vm with next := vm.next + 5, committed := fun j => if j = vm.next + 4 then some modulusBytes else vm.committed j }

theorem alloc_ok {A : AddMod} {k : Kx} {vm : Vm} {pms : VecRef} (h : (k.alloc A vm).2.2 = .ok pms) :
    k.state = .initialized ∧ vm.committed (vm.next + 4) = none ∧ pms = outAt A vm.next (·.1) ∧
      k.alloc A vm = ({ k with state := .setup (slotsAt A vm.next) }, vmAlloc vm, .ok pms) := by
  unfold Kx.alloc at h ⊢
  split at h
  · rename_i hs
    rw [hs]
    simp only [Vm.alloc, Vm.assign] at h ⊢
    simp only [show modulusBytes.length = 32 from rfl, ne_eq, not_true_eq_false, if_false] at h ⊢
    by_cases hc : vm.committed (vm.next + 1 + 1 + 1 + 1) = none
    · simp only [hc, Option.isSome_none, Bool.false_eq_true, if_false] at h ⊢
      cases h
      exact ⟨trivial, trivial, rfl, rfl⟩
    · obtain ⟨v, hv⟩ := Option.ne_none_iff_exists'.1 hc
      simp only [hv, Option.isSome_some, if_true] at h
      cases h
  · cases h

theorem alloc_fresh (A : AddMod) {k : Kx} {vm : Vm} (hk : k.state = .initialized) (hvm : vm.Fresh) :
    k.alloc A vm = ({ k with state := .setup (slotsAt A vm.next) }, vmAlloc vm, .ok (outAt A vm.next (·.1))) := by
  have hc : vm.committed (vm.next + 1 + 1 + 1 + 1) = none := hvm.unused _ (by omega)
  have h : (k.alloc A vm).2.2 = .ok (outAt A vm.next (·.1)) := by
    unfold Kx.alloc
    rw [hk]
    simp only [Vm.alloc, Vm.assign, hc, show modulusBytes.length = 32 from rfl, ne_eq, not_true_eq_false, if_false,
      Option.isSome_none, Bool.false_eq_true]
    rfl
  exact (alloc_ok h).2.2.2

/-- The state is one of failure if an allocation fails. -/
theorem alloc_fail {A : AddMod} {k : Kx} {vm : Vm} (h : ∀ pms, (k.alloc A vm).2.2 ≠ .ok pms) :
    (k.alloc A vm).1.state = .error := by
  unfold Kx.alloc at h ⊢
  split
  · rename_i hs
    rw [hs] at h
    simp only [Vm.alloc] at h ⊢
    split
    · rename_i hv
      simp only [hv] at h
      exact absurd rfl (h _)
    · rfl
    · rfl
  · rfl

theorem inp_run {n : Nat} {e : Env} {v : Bytes} : (inp n).val.run e = some v ↔ e n = some v ∧ v.length = 32 := by
  simp [inp, Ref.input, Option.filter_eq_some_iff]

/-- An output of the circuit has a value exactly if all inputs have. -/
theorem outAt_run {A : AddMod} {n : Nat} {out : Bytes × Bytes × Bytes → Bytes} {e : Env} {w : Bytes} :
    (outAt A n out).val.run e = some w ↔ ∃ v0 v1 v2 v3 v4, (e n = some v0 ∧ v0.length = 32) ∧
      (e (n + 1) = some v1 ∧ v1.length = 32) ∧ (e (n + 2) = some v2 ∧ v2.length = 32) ∧
      (e (n + 3) = some v3 ∧ v3.length = 32) ∧ (e (n + 4) = some v4 ∧ v4.length = 32) ∧
      w = out (pmsCall A v0 v1 v2 v3 v4) := by
  simp only [outAt, circuitOut, Ref.map2, Option.bind_eq_some_iff, Option.map_eq_some_iff, inp_run]
  constructor
  · rintro ⟨_, ⟨v0, h0, v1, h1, rfl⟩, _, ⟨v2, h2, _, ⟨v3, h3, v4, h4, rfl⟩, rfl⟩, rfl⟩
    exact ⟨v0, v1, v2, v3, v4, h0, h1, h2, h3, h4, rfl⟩
  · rintro ⟨v0, v1, v2, v3, v4, h0, h1, h2, h3, h4, rfl⟩
    exact ⟨_, ⟨v0, h0, v1, h1, rfl⟩, _, ⟨v2, h2, _, ⟨v3, h3, v4, h4, rfl⟩, rfl⟩, rfl⟩

theorem outAt_sized (A : AddMod) (n : Nat) : (outAt A n (·.1)).Sized := by
  intro e v hv
  obtain ⟨v0, v1, v2, v3, v4, -, -, -, -, -, rfl⟩ := outAt_run.1 hv
  show (pmsCall A v0 v1 v2 v3 v4).1.length = 32
  rw [pmsCall_eq, beBytes_length]

theorem assign_cases (k : Kx) (vm : Vm) :
    (∃ s p0 p1 vm1 vm2, k.state = .computed s p0 p1 ∧ vm.assign (k.ownSlots s).1 (fpBytes p0) = .ok vm1 ∧
      vm1.assign (k.ownSlots s).2 (fpBytes p1) = .ok vm2 ∧
      k.assign vm = ({ k with state := .equalityCheck s.eq.val }, vm2, .ok ())) ∨
    ((k.assign vm).1.state = .error ∧ ∃ e, (k.assign vm).2.2 = .err e) := by
  unfold Kx.assign
  split
  · rename_i s p0 p1 hs
    rcases h1 : vm.assign (k.ownSlots s).1 (fpBytes p0) with vm1 | _ | _
    · rcases h2 : vm1.assign (k.ownSlots s).2 (fpBytes p1) with vm2 | _ | _
      · exact Or.inl ⟨s, p0, p1, vm1, vm2, hs, h1, h2, by simp only [h2]⟩
      · simp only [h2]; exact Or.inr ⟨trivial, _, rfl⟩
      · simp only [h2]; exact Or.inr ⟨trivial, _, rfl⟩
    · exact Or.inr ⟨rfl, _, rfl⟩
    · exact Or.inr ⟨rfl, _, rfl⟩
  · exact Or.inr ⟨rfl, _, rfl⟩

theorem finalize_cases (k : Kx) (vm : Vm) :
    (∃ eq, k.state = .equalityCheck eq ∧ vm.recv eq = some (List.replicate 32 0) ∧
      k.finalize vm = ({ k with state := .complete }, .ok ())) ∨
    ((k.finalize vm).1.state = .error ∧ ∃ e, (k.finalize vm).2 = .err e) := by
  unfold Kx.finalize
  split
  · rename_i eq hs
    rcases hv : vm.recv eq with _ | v
    · exact Or.inr ⟨rfl, _, rfl⟩
    · by_cases hz : v = List.replicate 32 0
      · exact Or.inl ⟨eq, hs, by rw [hv, hz], by simp only [hz, ne_eq, not_true_eq_false, if_false]⟩
      · simp only [ne_eq, hz, not_false_eq_true, if_true]
        exact Or.inr ⟨trivial, _, rfl⟩
  · exact Or.inr ⟨rfl, _, rfl⟩

/-! ## Any history of one party -/

/-- The calls of one party, and what happens in the machine meanwhile: `peer` is an input of the peer or of another
component. -/
inductive KxOp where
  | alloc
  | setServerKey (key : Point)
  | setup (received : Option Point)
  | computeShares (r0 r1 : Outcome KxError Fp)
  | assign
  | finalize
  | peer (id : Nat) (v : Bytes)
  | execute

/-- One step.  The result says whether a call succeeded; a failed call leaves the party in the state it has then. -/
def KxOp.step (A : AddMod) (s : Kx × Vm) : KxOp → (Kx × Vm) × Bool
  | .alloc => let r := s.1.alloc A s.2; ((r.1, r.2.1), match r.2.2 with | .ok _ => true | _ => false)
  | .setServerKey p => ((s.1.setServerKey p, s.2), true)
  | .setup q => let r := s.1.setup q; ((r.1, s.2), match r.2 with | .ok _ => true | _ => false)
  | .computeShares r0 r1 => let r := s.1.storeShares r0 r1; ((r.1, s.2), match r.2 with | .ok _ => true | _ => false)
  | .assign => let r := s.1.assign s.2; ((r.1, r.2.1), match r.2.2 with | .ok _ => true | _ => false)
  | .finalize => let r := s.1.finalize s.2; ((r.1, s.2), match r.2 with | .ok _ => true | _ => false)
  | .peer id v => match s.2.assign ⟨some id, v.length, Ref.input id v.length⟩ v with
    | .ok vm => ((s.1, vm), true)
    | _ => (s, true)
  | .execute => ((s.1, s.2.execute), true)

/-- A history. -/
def runKx (A : AddMod) : List KxOp → Kx × Vm → Kx × Vm
  | [], s => s
  | op :: ops, s => runKx A ops (op.step A s).1

theorem runKx_append (A : AddMod) (xs ys : List KxOp) (s : Kx × Vm) : runKx A (xs ++ ys) s = runKx A ys (runKx A xs s) := by
  induction xs generalizing s with
  | nil => rfl
  | cons x xs ih => exact ih _

/-- The steps of the protocol. -/
inductive Phase where
  | alloc
  | setup
  | computeShares
  | assign
  | finalize
  deriving DecidableEq, Repr

def KxOp.phase : KxOp → Option Phase
  | .alloc => some .alloc
  | .setup _ => some .setup
  | .computeShares _ _ => some .computeShares
  | .assign => some .assign
  | .finalize => some .finalize
  | _ => none

/-- The steps that succeeded in a history, in order. -/
def succeeded (A : AddMod) : List KxOp → Kx × Vm → List Phase
  | [], _ => []
  | op :: ops, s =>
    let r := op.step A s
    (if r.2 then op.phase.toList else []) ++ succeeded A ops r.1

/-- The steps that a state has behind it. -/
def KxState.done : KxState → Option (List Phase)
  | .initialized => some []
  | .setup _ => some [.alloc]
  | .followerKey _ _ => some [.alloc, .setup]
  | .computed _ _ _ => some [.alloc, .setup, .computeShares]
  | .equalityCheck _ => some [.alloc, .setup, .computeShares, .assign]
  | .complete => some [.alloc, .setup, .computeShares, .assign, .finalize]
  | .error => none

/-- A step of the protocol either succeeds from the state before it, or leads to the state of failure. -/
theorem step_phase (A : AddMod) (op : KxOp) (s : Kx × Vm) :
    (op.phase = none → (op.step A s).1.1.state = s.1.state) ∧
    (∀ p, op.phase = some p → (op.step A s).2 = false → (op.step A s).1.1.state = .error) ∧
    (∀ p, op.phase = some p → (op.step A s).2 = true →
      ∃ d, s.1.state.done = some d ∧ (op.step A s).1.1.state.done = some (d ++ [p])) := by
  obtain ⟨k, vm⟩ := s
  cases op with
  | alloc =>
    refine ⟨fun h => (by cases h), fun p hp h => ?_, fun p hp h => ?_⟩
    · refine alloc_fail fun pms hpms => ?_
      simp only [KxOp.step] at h
      rw [hpms] at h
      cases h
    · simp only [KxOp.step] at h ⊢
      rcases hr : (k.alloc A vm).2.2 with pms | e | _
      · obtain ⟨h1, -, -, h4⟩ := alloc_ok hr
        cases hp
        exact ⟨[], by rw [h1]; rfl, by rw [h4]; rfl⟩
      · rw [hr] at h; cases h
      · rw [hr] at h; cases h
  | setServerKey p => exact ⟨fun _ => rfl, fun p hp => (by cases hp), fun p hp => (by cases hp)⟩
  | setup q =>
    refine ⟨fun h => (by cases h), fun p hp h => ?_, fun p hp h => ?_⟩ <;> cases hp <;>
      simp only [KxOp.step, Kx.setup] at h ⊢ <;> rcases hs : k.state with _ | _ | _ | _ | _ | _ | _ <;>
      cases q <;> simp only [hs] at h ⊢ <;> first | rfl | (cases h; done) | exact ⟨_, rfl, rfl⟩
  | computeShares r0 r1 =>
    refine ⟨fun h => (by cases h), fun p hp h => ?_, fun p hp h => ?_⟩ <;> cases hp <;>
      simp only [KxOp.step, Kx.storeShares] at h ⊢ <;> rcases hs : k.sharePoint with ⟨s, e⟩ | _ | _ <;>
      simp only [hs] at h ⊢
    · cases r0 <;> cases r1 <;> simp only at h ⊢ <;> cases h
    · cases r0 <;> cases r1 <;> simp only at h ⊢ <;> try cases h
      unfold Kx.sharePoint at hs
      split at hs
      · rename_i hst
        rw [hst]
        exact ⟨_, rfl, rfl⟩
      · cases hs
    · cases h
    · cases h
  | assign =>
    refine ⟨fun h => (by cases h), fun p hp h => ?_, fun p hp h => ?_⟩ <;> cases hp <;> simp only [KxOp.step] at h ⊢ <;>
      rcases assign_cases k vm with ⟨s, p0, p1, vm1, vm2, hs, -, -, he⟩ | ⟨hs, e, he⟩
    · rw [he] at h; cases h
    · exact hs
    · rw [he, hs]; exact ⟨_, rfl, rfl⟩
    · rw [he] at h; cases h
  | finalize =>
    refine ⟨fun h => (by cases h), fun p hp h => ?_, fun p hp h => ?_⟩ <;> cases hp <;> simp only [KxOp.step] at h ⊢ <;>
      rcases finalize_cases k vm with ⟨eq, hs, -, he⟩ | ⟨hs, e, he⟩
    · rw [he] at h; cases h
    · exact hs
    · rw [he, hs]; exact ⟨_, rfl, rfl⟩
    · rw [he] at h; cases h
  | peer id v =>
    refine ⟨fun _ => ?_, fun p hp => (by cases hp), fun p hp => (by cases hp)⟩
    simp only [KxOp.step]
    split <;> rfl
  | execute => exact ⟨fun _ => rfl, fun p hp => (by cases hp), fun p hp => (by cases hp)⟩

theorem step_error (A : AddMod) (op : KxOp) {s : Kx × Vm} (h : s.1.state = .error) :
    (op.step A s).1.1.state = .error ∧ (op.phase ≠ none → (op.step A s).2 = false) := by
  obtain ⟨h1, h2, h3⟩ := step_phase A op s
  rcases hp : op.phase with _ | p
  · exact ⟨(h1 hp).trans h, fun hn => absurd rfl hn⟩
  · rcases hr : (op.step A s).2 with _ | _
    · exact ⟨h2 p hp hr, fun _ => rfl⟩
    · obtain ⟨d, hd, -⟩ := h3 p hp hr
      rw [h] at hd
      cases hd

theorem succeeded_error (A : AddMod) (ops : List KxOp) {s : Kx × Vm} (h : s.1.state = .error) : succeeded A ops s = [] := by
  induction ops generalizing s with
  | nil => rfl
  | cons op ops ih =>
    obtain ⟨h1, h2⟩ := step_error A op h
    simp only [succeeded, ih h1, List.append_nil]
    rcases hp : op.phase with _ | p
    · simp
    · rw [h2 (by rw [hp]; exact Option.some_ne_none _)]; rfl

theorem done_prefix {st : KxState} {d : List Phase} (h : st.done = some d) :
    d <+: [.alloc, .setup, .computeShares, .assign, .finalize] := by
  cases st <;> cases h <;> decide

theorem done_succeeded (A : AddMod) (ops : List KxOp) {s : Kx × Vm} {d : List Phase} (h : s.1.state.done = some d) :
    d ++ succeeded A ops s <+: [.alloc, .setup, .computeShares, .assign, .finalize] := by
  induction ops generalizing s d with
  | nil => simpa [succeeded] using done_prefix h
  | cons op ops ih =>
    obtain ⟨h1, h2, h3⟩ := step_phase A op s
    simp only [succeeded]
    rcases hp : op.phase with _ | p
    · have : (op.step A s).1.1.state.done = some d := by rw [h1 hp]; exact h
      simpa using ih this
    · rcases hr : (op.step A s).2 with _ | _
      · rw [succeeded_error A ops (h2 p hp hr)]
        simpa using done_prefix h
      · obtain ⟨d', hd, hn⟩ := h3 p hp hr
        rw [h] at hd
        cases hd
        simpa using ih hn

/-! ## The invariant of one party -/

/-- What a party has put into the machine, and what it will put there. -/
structure KxInv (A : AddMod) (ops : List KxOp) (s : Kx × Vm) (n : Nat) : Prop where
  le : s.2.executed.Le s.2.committed
  slots : ∀ x, s.1.state = .setup x → x = slotsAt A n ∧ s.2.committed (n + 4) = some modulusBytes
  key : ∀ k x, s.1.state = .followerKey k x → x = slotsAt A n ∧ s.2.committed (n + 4) = some modulusBytes
  computed : ∀ x p0 p1, s.1.state = .computed x p0 p1 →
    x = slotsAt A n ∧ s.2.committed (n + 4) = some modulusBytes ∧ KxOp.computeShares (.ok p0) (.ok p1) ∈ ops
  check : ∀ eq, s.1.state = .equalityCheck eq → eq = (outAt A n (·.2.2)).val ∧ s.2.committed (n + 4) = some modulusBytes ∧
    ∃ p0 p1, KxOp.computeShares (.ok p0) (.ok p1) ∈ ops ∧
      (match s.1.role with
        | .leader => s.2.committed n = some (fpBytes p0) ∧ s.2.committed (n + 2) = some (fpBytes p1)
        | .follower => s.2.committed (n + 1) = some (fpBytes p0) ∧ s.2.committed (n + 3) = some (fpBytes p1))

theorem assign_input {vm vm' : Vm} {id len : Nat} {r : Ref Bytes} {v : Bytes} (h : vm.assign ⟨some id, len, r⟩ v = .ok vm') :
    vm.committed id = none ∧ vm' = { vm with committed := fun j => if j = id then some v else vm.committed j } := by
  simp only [Vm.assign] at h
  split at h
  · cases h
  · split at h
    · cases h
    · rename_i h2
      cases h
      exact ⟨by simpa using h2, rfl⟩

theorem assign_le {vm vm' : Vm} {id len : Nat} {r : Ref Bytes} {v : Bytes} (h : vm.assign ⟨some id, len, r⟩ v = .ok vm') :
    vm.committed.Le vm'.committed ∧ vm'.executed = vm.executed ∧ vm'.committed id = some v := by
  obtain ⟨h1, rfl⟩ := assign_input h
  refine ⟨fun i w hw => ?_, rfl, by simp⟩
  have : i ≠ id := by rintro rfl; rw [h1] at hw; cases hw
  simpa [this] using hw

theorem env_le_trans {a b c : Env} (h1 : a.Le b) (h2 : b.Le c) : a.Le c := fun i v h => h2 i v (h1 i v h)

theorem env_le_refl (a : Env) : a.Le a := fun _ _ h => h

theorem role_step (A : AddMod) (op : KxOp) (s : Kx × Vm) : (op.step A s).1.1.role = s.1.role := by
  obtain ⟨k, vm⟩ := s
  cases op with
  | alloc =>
    simp only [KxOp.step, Kx.alloc, Vm.alloc]
    split
    · split <;> rfl
    · rfl
  | setServerKey p => rfl
  | setup q =>
    simp only [KxOp.step, Kx.setup]
    split
    · split <;> rfl
    · rfl
  | computeShares r0 r1 =>
    simp only [KxOp.step, Kx.storeShares]
    split
    · split <;> rfl
    · rfl
    · rfl
  | assign =>
    simp only [KxOp.step, Kx.assign]
    split
    · split
      · split <;> rfl
      · rfl
    · rfl
  | finalize =>
    simp only [KxOp.step, Kx.finalize]
    split
    · split
      · rfl
      · split <;> rfl
    · rfl
  | peer id v => simp only [KxOp.step]; split <;> rfl
  | execute => rfl

/-- The invariant survives when the state stays and the machine learns more. -/
theorem KxInv.grow {A : AddMod} {ops : List KxOp} {k k' : Kx} {vm vm' : Vm} {n : Nat} (h : KxInv A ops (k, vm) n)
    (hs : k'.state = k.state) (hr : k'.role = k.role) (op : KxOp) (hc : vm.committed.Le vm'.committed)
    (he : vm'.executed.Le vm'.committed) : KxInv A (ops ++ [op]) (k', vm') n := by
  constructor
  · exact he
  · intro x hx; rw [hs] at hx; obtain ⟨h1, h2⟩ := h.slots x hx; exact ⟨h1, hc _ _ h2⟩
  · intro q x hx; rw [hs] at hx; obtain ⟨h1, h2⟩ := h.key q x hx; exact ⟨h1, hc _ _ h2⟩
  · intro x p0 p1 hx
    rw [hs] at hx
    obtain ⟨h1, h2, h3⟩ := h.computed x p0 p1 hx
    exact ⟨h1, hc _ _ h2, List.mem_append_left _ h3⟩
  · intro eq hx
    rw [hs] at hx
    obtain ⟨h1, h2, p0, p1, h3, h4⟩ := h.check eq hx
    refine ⟨h1, hc _ _ h2, p0, p1, List.mem_append_left _ h3, ?_⟩
    simp only [hr]
    cases hrole : k.role <;> simp only [hrole] at h4 ⊢ <;> exact ⟨hc _ _ h4.1, hc _ _ h4.2⟩

/-- A state that carries nothing. -/
theorem KxInv.bare {A : AddMod} {ops : List KxOp} {k : Kx} {vm : Vm} {n : Nat} (he : vm.executed.Le vm.committed)
    (hs : k.state = .error ∨ k.state = .complete ∨ k.state = .initialized) : KxInv A ops (k, vm) n := by
  constructor
  · exact he
  all_goals intros; rename_i hx; rcases hs with hs | hs | hs <;> rw [hs] at hx <;> cases hx

theorem KxInv.step {A : AddMod} {ops : List KxOp} {s : Kx × Vm} {n : Nat} (h : KxInv A ops s n) (op : KxOp)
    (hop : op ≠ .alloc) : KxInv A (ops ++ [op]) (op.step A s).1 n := by
  obtain ⟨k, vm⟩ := s
  have hle := h.le
  cases op with
  | alloc => exact absurd rfl hop
  | setServerKey p => exact h.grow (k' := k.setServerKey p) rfl rfl _ (env_le_refl _) hle
  | setup q =>
    simp only [KxOp.step, Kx.setup]
    split
    · rename_i x hs
      obtain ⟨h1, h2⟩ := h.slots x hs
      split
      · exact KxInv.bare hle (Or.inl rfl)
      · refine ⟨hle, ?_, ?_, ?_, ?_⟩
        · intro y hy; cases hy
        · intro _ y hy; cases hy; exact ⟨h1, h2⟩
        · intro _ _ _ hy; cases hy
        · intro _ hy; cases hy
    · exact KxInv.bare hle (Or.inl rfl)
  | computeShares r0 r1 =>
    simp only [KxOp.step, Kx.storeShares]
    split
    · rename_i x e hs
      unfold Kx.sharePoint at hs
      split at hs
      · rename_i fk y hst
        have hx : x = y := by
          split at hs
          · cases hs
          · obtain ⟨_, -, hs⟩ := Outcome.bind_eq_ok.1 hs
            cases hs; rfl
        subst hx
        obtain ⟨h1, h2⟩ := h.key fk x hst
        split
        · refine ⟨hle, ?_, ?_, ?_, ?_⟩
          · intro y hy; cases hy
          · intro _ y hy; cases hy
          · intro _ _ _ hy; cases hy; exact ⟨h1, h2, by simp⟩
          · intro _ hy; cases hy
        all_goals exact KxInv.bare hle (Or.inl rfl)
      · cases hs
    all_goals exact KxInv.bare hle (Or.inl rfl)
  | assign =>
    simp only [KxOp.step]
    rcases assign_cases k vm with ⟨x, p0, p1, vm1, vm2, hs, ha1, ha2, he⟩ | ⟨hs, e, he⟩
    · obtain ⟨h1, h2, h3⟩ := h.computed x p0 p1 hs
      subst h1
      rw [he]
      cases hrole : k.role with
      | leader =>
        simp only [Kx.ownSlots, hrole, slotsAt, inp] at ha1 ha2
        obtain ⟨l1, e1, c1⟩ := assign_le ha1
        obtain ⟨l2, e2, c2⟩ := assign_le ha2
        refine ⟨?_, ?_, ?_, ?_, ?_⟩
        · simp only [e2, e1]; exact env_le_trans hle (env_le_trans l1 l2)
        · intro y hy; cases hy
        · intro _ y hy; cases hy
        · intro _ _ _ hy; cases hy
        · intro _ hy
          cases hy
          refine ⟨rfl, l2 _ _ (l1 _ _ h2), p0, p1, List.mem_append_left _ h3, ?_⟩
          simp only
          exact ⟨l2 _ _ c1, c2⟩
      | follower =>
        simp only [Kx.ownSlots, hrole, slotsAt, inp] at ha1 ha2
        obtain ⟨l1, e1, c1⟩ := assign_le ha1
        obtain ⟨l2, e2, c2⟩ := assign_le ha2
        refine ⟨?_, ?_, ?_, ?_, ?_⟩
        · simp only [e2, e1]; exact env_le_trans hle (env_le_trans l1 l2)
        · intro y hy; cases hy
        · intro _ y hy; cases hy
        · intro _ _ _ hy; cases hy
        · intro _ hy
          cases hy
          refine ⟨rfl, l2 _ _ (l1 _ _ h2), p0, p1, List.mem_append_left _ h3, ?_⟩
          simp only
          exact ⟨l2 _ _ c1, c2⟩
    · refine KxInv.bare ?_ (Or.inl hs)
      unfold Kx.assign at hs ⊢
      split
      · rename_i x p0 p1 hst
        obtain ⟨hx, -, -⟩ := h.computed x p0 p1 hst
        subst hx
        have own : ∃ i j, (k.ownSlots (slotsAt A n)) = (inp i, inp j) := by
          cases hrole : k.role <;> simp only [Kx.ownSlots, hrole, slotsAt] <;> exact ⟨_, _, rfl⟩
        obtain ⟨i, j, hij⟩ := own
        simp only [hij]
        split
        · rename_i vm1 h1
          obtain ⟨l1, e1, c1⟩ := assign_le h1
          split
          · rename_i vm2 h2
            obtain ⟨l2, e2, c2⟩ := assign_le h2
            simp only [e2, e1]; exact env_le_trans hle (env_le_trans l1 l2)
          · simp only [e1]; exact env_le_trans hle l1
        · exact hle
      · exact hle
  | finalize =>
    simp only [KxOp.step]
    rcases finalize_cases k vm with ⟨eq, hs, -, he⟩ | ⟨hs, e, he⟩
    · rw [he]; exact KxInv.bare hle (Or.inr (Or.inl rfl))
    · exact KxInv.bare hle (Or.inl hs)
  | peer id v =>
    simp only [KxOp.step]
    split
    · rename_i vm1 h1
      obtain ⟨l1, e1, c1⟩ := assign_le h1
      exact h.grow rfl rfl _ l1 (by rw [e1]; exact env_le_trans hle l1)
    · exact h.grow rfl rfl _ (env_le_refl _) hle
  | execute => exact h.grow rfl rfl _ (env_le_refl _) (env_le_refl _)

theorem alloc_le (A : AddMod) {k : Kx} {vm : Vm} (h : vm.executed.Le vm.committed) :
    (k.alloc A vm).2.1.executed.Le (k.alloc A vm).2.1.committed := by
  unfold Kx.alloc
  split
  · simp only [Vm.alloc]
    split
    · rename_i h1
      obtain ⟨l1, e1, -⟩ := assign_le h1
      simp only [e1]
      exact env_le_trans h l1
    · exact h
    · exact h
  · exact h

/-- After any history the invariant holds for the allocation that succeeded, if one has. -/
theorem run_inv (A : AddMod) (k0 : Kx) (vm0 : Vm) (h0 : vm0.executed.Le vm0.committed) (hk : k0.state = .initialized)
    (ops : List KxOp) :
    ((runKx A ops (k0, vm0)).1.state = .initialized ∨ (runKx A ops (k0, vm0)).1.state = .error) ∧
        (runKx A ops (k0, vm0)).2.executed.Le (runKx A ops (k0, vm0)).2.committed ∨
      ∃ pre post pms, ops = pre ++ .alloc :: post ∧
        ((runKx A pre (k0, vm0)).1.alloc A (runKx A pre (k0, vm0)).2).2.2 = .ok pms ∧
        pms = outAt A (runKx A pre (k0, vm0)).2.next (·.1) ∧
        KxInv A post (runKx A ops (k0, vm0)) (runKx A pre (k0, vm0)).2.next := by
  induction ops using List.reverseRecOn with
  | nil => exact Or.inl ⟨Or.inl hk, h0⟩
  | append_singleton ops op ih =>
    rw [runKx_append]
    simp only [runKx]
    generalize hs : runKx A ops (k0, vm0) = s at ih
    by_cases hop : op = .alloc
    · subst hop
      rcases hr : (s.1.alloc A s.2).2.2 with pms | e | _
      · obtain ⟨h1, h2, h3, h4⟩ := alloc_ok hr
        refine Or.inr ⟨ops, [], pms, rfl, by rw [hs]; exact hr, by rw [hs]; exact h3, ?_⟩
        simp only [KxOp.step, h4, hs]
        have hle : s.2.executed.Le s.2.committed := by
          rcases ih with ⟨-, h⟩ | ⟨_, _, _, _, _, _, h⟩
          · exact h
          · exact h.le
        refine ⟨?_, ?_, ?_, ?_, ?_⟩
        · refine env_le_trans hle fun i v hv => ?_
          have : i ≠ s.2.next + 4 := by rintro rfl; rw [h2] at hv; cases hv
          simpa [vmAlloc, this] using hv
        · intro y hy; cases hy; exact ⟨rfl, by simp [vmAlloc]⟩
        · intro _ y hy; cases hy
        · intro _ _ _ hy; cases hy
        · intro _ hy; cases hy
      all_goals
        have hst : (s.1.alloc A s.2).1.state = .error := alloc_fail fun p hp => (by rw [hr] at hp; cases hp)
        have hle : s.2.executed.Le s.2.committed := by
          rcases ih with ⟨-, h⟩ | ⟨_, _, _, _, _, _, h⟩
          · exact h
          · exact h.le
        exact Or.inl ⟨Or.inr hst, alloc_le A hle⟩
    · rcases ih with ⟨hst, hle⟩ | ⟨pre, post, pms, h1, h2, h3, h4⟩
      · have hi : KxInv A [] (s.1, s.2) 0 := KxInv.bare hle (by rcases hst with h | h <;> simp [h])
        have hi' := hi.step op hop
        refine Or.inl ⟨?_, hi'.le⟩
        obtain ⟨p1, p2, p3⟩ := step_phase A op s
        rcases hp : op.phase with _ | p
        · rw [p1 hp]; exact hst
        · rcases hres : (op.step A s).2 with _ | _
          · exact Or.inr (p2 p hp hres)
          · exfalso
            obtain ⟨d, hd, hn⟩ := p3 p hp hres
            rcases hst with h | h
            · rw [h] at hd
              cases hd
              have := done_prefix hn
              simp only [List.nil_append] at this
              have hpa : p = .alloc := by
                cases p <;> first | rfl | exact absurd this (by decide)
              subst hpa
              cases op <;> first | exact hop rfl | cases hp
            · rw [h] at hd; cases hd
      · refine Or.inr ⟨pre, post ++ [op], pms, by rw [h1]; simp, h2, h3, h4.step op hop⟩

end Tlsn.Kex
