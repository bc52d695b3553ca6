import Verif.Deap.Ideal
import Mathlib.Data.List.Forall2

/-! # The two memories of a DEAP VM hold the same values -/

namespace Tlsn.DualExec

/-! ## Actions -/

/-- An action preserves a property of the state. -/
def Pres {σ α : Type} (P : σ → Prop) (x : Act σ α) : Prop := ∀ s, P s → P (x s).1

theorem Act.bind_apply {σ α β : Type} (x : Act σ α) (f : α → Act σ β) (s : σ) :
    (x >>= f) s = match x s with
      | (s, .ok a) => f a s
      | (s, .err e) => (s, .err e)
      | (s, .panic) => (s, .panic) := rfl

theorem Pres.bind {σ α β : Type} {P : σ → Prop} {x : Act σ α} {f : α → Act σ β} (hx : Pres P x) (hf : ∀ a, Pres P (f a)) :
    Pres P (x >>= f) := by
  intro s hs
  have h := hx s hs
  rw [Act.bind_apply]
  revert h
  rcases x s with ⟨s1, a | e | _⟩ <;> intro h
  · exact hf a s1 h
  · exact h
  · exact h

theorem Pres.pure {σ α : Type} {P : σ → Prop} (a : α) : Pres P (Pure.pure a : Act σ α) := fun _ h => h

theorem Pres.lift {σ α : Type} {P : σ → Prop} (f : σ → Outcome Unit α) : Pres P (Act.lift f) := fun _ h => h

theorem Pres.forEach {σ α : Type} {P : σ → Prop} {f : α → Act σ Unit} (h : ∀ a, Pres P (f a)) (l : List α) : Pres P (Act.forEach f l) := by
  induction l with
  | nil => exact Pres.pure ()
  | cons a l ih => exact (h a).bind fun _ => ih

theorem Act.bind_ok {σ α β : Type} {x : Act σ α} {f : α → Act σ β} {s s' : σ} {b : β} (h : (x >>= f) s = (s', .ok b)) :
    ∃ s1 a, x s = (s1, .ok a) ∧ f a s1 = (s', .ok b) := by
  rw [Act.bind_apply] at h
  rcases hx : x s with ⟨s1, a | e | _⟩
  · rw [hx] at h; exact ⟨s1, a, rfl, h⟩
  · rw [hx] at h; cases h
  · rw [hx] at h; cases h

/-! ## Values -/

theorem values_append (ρ : Nat → Option Bool) (es : List Event) (e : Event) : values ρ (es ++ [e]) = addEvent ρ (values ρ es) e := by
  simp [values, List.foldl_append]

theorem addEvent_out {ρ v : Nat → Option Bool} {e : Event} {a : Nat} (h : a < e.out.start ∨ e.out.stop ≤ a) : addEvent ρ v e a = v a := by
  unfold addEvent
  rw [if_neg]
  omega

theorem addEvent_in {ρ v : Nat → Option Bool} {e : Event} {i : Nat} (h : i < e.out.len) :
    addEvent ρ v e (e.out.start + i) = e.value ρ v i := by
  unfold addEvent
  rw [if_pos ⟨Nat.le_add_right _ _, by unfold Slice.stop; omega⟩, Nat.add_sub_cancel_left]

theorem readSlice_congr {v w : Nat → Option Bool} {s z : Slice} (hl : z.len = s.len)
    (h : ∀ i, i < s.len → v (s.start + i) = w (z.start + i)) : readSlice v s = readSlice w z := by
  unfold readSlice
  rw [hl]
  have : ∀ n, (∀ i, i < n → v (s.start + i) = w (z.start + i)) →
      (List.range' s.start n).mapM v = (List.range' z.start n).mapM w := by
    intro n
    generalize s.start = a
    generalize z.start = b
    induction n generalizing a b with
    | zero => intro _; rfl
    | succ n ih =>
      intro hi
      have h0 : v a = w b := hi 0 (Nat.succ_pos _)
      rw [List.range'_succ, List.range'_succ, List.mapM_cons, List.mapM_cons, h0, ih (a + 1) (b + 1)]
      intro i hlt
      have := hi (i + 1) (Nat.succ_lt_succ hlt)
      rw [show a + (i + 1) = a + 1 + i by omega, show b + (i + 1) = b + 1 + i by omega] at this
      exact this
  exact this _ h

theorem readSlice_length {v : Nat → Option Bool} {s : Slice} {x : List Bool} (h : readSlice v s = some x) : x.length = s.len := by
  unfold readSlice at h
  have : ∀ (l : List Nat) (x : List Bool), l.mapM v = some x → x.length = l.length := by
    intro l
    induction l with
    | nil => intro x hx; cases hx; rfl
    | cons a l ih =>
      intro x hx
      rw [List.mapM_cons] at hx
      obtain ⟨b, -, hx⟩ := Option.bind_eq_some_iff.1 hx
      obtain ⟨y, hy, hx⟩ := Option.bind_eq_some_iff.1 hx
      cases hx
      simp [ih _ hy]
  simpa using this _ _ h

/-! ## The ideal VM -/

/-- The VM has only grown. -/
structure Ideal.Le (v w : Ideal) : Prop where
  next : v.next ≤ w.next
  vals : ∀ ρ a, a < v.next → values ρ w.prog a = values ρ v.prog a
  futures : v.futures <+: w.futures
  assigned : ∀ a b, v.assigned a = some b → w.assigned a = some b
  committed : ∀ a, v.committed a = true → w.committed a = true
  fill : w.fill = v.fill

theorem Ideal.Le.refl (v : Ideal) : v.Le v := ⟨le_refl _, fun _ _ _ => rfl, List.prefix_rfl, fun _ _ h => h, fun _ h => h, rfl⟩

theorem Ideal.Le.trans {u v w : Ideal} (h : u.Le v) (h' : v.Le w) : u.Le w :=
  ⟨le_trans h.next h'.next, fun ρ a ha => by rw [h'.vals ρ a (lt_of_lt_of_le ha h.next), h.vals ρ a ha], h.futures.trans h'.futures,
    fun a b hb => h'.assigned a b (h.assigned a b hb), fun a ha => h'.committed a (h.committed a ha), h'.fill.trans h.fill⟩

theorem Ideal.Le.append {v : Ideal} {n : Nat} {e : Event} (he : e.out = ⟨v.next, n⟩) :
    v.Le { v with next := v.next + n, prog := v.prog ++ [e] } := by
  refine ⟨Nat.le_add_right _ _, fun ρ a ha => ?_, List.prefix_rfl, fun _ _ h => h, fun _ h => h, rfl⟩
  rw [values_append, addEvent_out]
  left
  rw [he]
  exact ha

theorem Slice.all_iff {s : Slice} {p : Nat → Bool} : s.all p = true ↔ ∀ i, i < s.len → p (s.start + i) = true := by
  unfold Slice.all
  rw [List.all_eq_true]
  constructor
  · intro h i hi
    exact h _ (List.mem_range'.2 ⟨i, hi, by omega⟩)
  · intro h a ha
    obtain ⟨i, hi, rfl⟩ := List.mem_range'.1 ha
    rw [Nat.one_mul]
    exact h i hi

theorem Slice.has_iff {s : Slice} {a : Nat} : s.has a = true ↔ ∃ i, i < s.len ∧ a = s.start + i := by
  unfold Slice.has Slice.stop
  rw [decide_eq_true_eq]
  constructor
  · rintro ⟨h1, h2⟩; exact ⟨a - s.start, by omega, by omega⟩
  · rintro ⟨i, hi, rfl⟩; omega

theorem Ideal.le_mark (v : Ideal) (s : Slice) (vis : Vis) : v.Le (Ideal.mark s vis v).1 := by
  unfold Ideal.mark
  split
  · exact ⟨le_refl _, fun _ _ _ => rfl, List.prefix_rfl, fun _ _ h => h, fun _ h => h, rfl⟩
  · exact .refl _

theorem Ideal.le_perform (v : Ideal) (c : VmCall) : v.Le (Ideal.perform c v).1 := by
  cases c with
  | alloc n => exact .append rfl
  | assign s data =>
    simp only [Ideal.perform]
    split
    · rename_i h
      refine ⟨le_refl _, fun _ _ _ => rfl, List.prefix_rfl, fun a b hb => ?_, fun _ h => h, rfl⟩
      simp only
      split
      · rename_i ha
        obtain ⟨i, hi, rfl⟩ := Slice.has_iff.1 ha
        have := Slice.all_iff.1 h.2 i hi
        rw [hb] at this
        simp at this
      · exact hb
    · exact .refl _
  | commit s =>
    simp only [Ideal.perform]
    split
    · exact ⟨le_refl _, fun _ _ _ => rfl, List.prefix_rfl, fun _ _ h => h, fun a h => by simp [h], rfl⟩
    · exact .refl _
  | markPublic s => exact v.le_mark s _
  | markPrivate s => exact v.le_mark s _
  | markBlind s => exact v.le_mark s _
  | decode s =>
    simp only [Ideal.perform]
    split
    · exact ⟨le_refl _, fun _ _ _ => rfl, List.prefix_append _ _, fun _ _ h => h, fun _ h => h, rfl⟩
    · exact .refl _
  | call c =>
    simp only [Ideal.perform]
    split
    · exact .append rfl
    · exact .refl _
  | execute => exact ⟨le_refl _, fun _ _ _ => rfl, List.prefix_rfl, fun _ _ h => h, fun _ h => h, rfl⟩

/-! ## The invariant -/

/-- A slice and its translation. -/
def Tr (l : List (Event × Event)) (s z : Slice) : Prop :=
  z.len = s.len ∧ (0 < s.len → ∃ p ∈ l, s.Inside p.1.out ∧ z.start = p.2.out.start + (s.start - p.1.out.start))

theorem Tr.append {l : List (Event × Event)} {s z : Slice} (h : Tr l s z) (p : Event × Event) : Tr (l ++ [p]) s z :=
  ⟨h.1, fun hs => by obtain ⟨q, hq, h'⟩ := h.2 hs; exact ⟨q, List.mem_append_left _ hq, h'⟩⟩

variable {σ : Type}

/-- The allocations and calls of the two VMs correspond. -/
structure Inv (l : List (Event × Event)) (d : Deap σ Ideal) : Prop where
  map : d.map.Ok (l.map fun p => (p.1.out, p.2.out))
  bound : ∀ p ∈ l, p.2.out.stop ≤ d.zk.next
  asc : l.Pairwise fun p q => p.2.out.stop ≤ q.2.out.start
  vals : ∀ ρ ρz : Nat → Option Bool,
    (∀ p ∈ l, ∀ i, i < p.1.out.len → ρ (p.1.out.start + i) = ρz (p.2.out.start + i)) →
    ∀ p ∈ l, ∀ i, i < p.1.out.len →
      values ρ (l.map (·.1)) (p.1.out.start + i) = values ρz d.zk.prog (p.2.out.start + i)
  outs : ∀ x ∈ d.outputs, ∃ z, d.zk.futures[x.2]? = some z ∧ Tr l x.1 z

theorem prefix_getElem? {α : Type} {l l' : List α} (h : l <+: l') {i : Nat} {x : α} (hx : l[i]? = some x) : l'[i]? = some x := by
  obtain ⟨t, rfl⟩ := h
  obtain ⟨hi, rfl⟩ := List.getElem?_eq_some_iff.1 hx
  rw [List.getElem?_append_left hi, List.getElem?_eq_getElem hi]

theorem Inv.grow {l : List (Event × Event)} {d d' : Deap σ Ideal} (h : Inv l d) (hm : d'.map = d.map) (ho : d'.outputs = d.outputs)
    (hz : d.zk.Le d'.zk) : Inv l d' := by
  refine ⟨by rw [hm]; exact h.map, fun p hp => le_trans (h.bound p hp) hz.next, h.asc, ?_, ?_⟩
  · intro ρ ρz hρ p hp i hi
    rw [h.vals ρ ρz hρ p hp i hi, hz.vals]
    have h1 := h.bound p hp
    have h2 := h.map.len _ (List.mem_map.2 ⟨p, hp, rfl⟩)
    simp only [Slice.stop] at h1 h2
    omega
  · intro x hx
    rw [ho] at hx
    obtain ⟨z, h1, h2⟩ := h.outs x hx
    exact ⟨z, prefix_getElem? hz.futures h1, h2⟩

theorem Inv.translate {l : List (Event × Event)} {d : Deap σ Ideal} (h : Inv l d) {B : BSearch} {s z : Slice}
    (hz : d.map.tryGet B s = .ok z) : Tr l s z := by
  refine ⟨h.map.tryGet_len hz, fun hs => ?_⟩
  obtain ⟨x, hx, hin, rfl⟩ := h.map.tryGet_ok hz hs
  obtain ⟨p, hp, rfl⟩ := List.mem_map.1 hx
  exact ⟨p, hp, hin, rfl⟩

/-- What a slice contains is what its translation contains. -/
theorem Inv.read {l : List (Event × Event)} {d : Deap σ Ideal} (h : Inv l d) {ρ ρz : Nat → Option Bool}
    (hρ : ∀ p ∈ l, ∀ i, i < p.1.out.len → ρ (p.1.out.start + i) = ρz (p.2.out.start + i)) {s z : Slice} (hz : Tr l s z) :
    readSlice (values ρ (l.map (·.1))) s = readSlice (values ρz d.zk.prog) z := by
  refine readSlice_congr hz.1 fun i hi => ?_
  obtain ⟨p, hp, hin, hst⟩ := hz.2 (by omega)
  have := h.vals ρ ρz hρ p hp (s.start - p.1.out.start + i) (by have := hin.2; have := hin.1; omega)
  rw [hst, Nat.add_assoc, ← this]
  congr 1
  have := hin.1
  omega

theorem Inv.reads {l : List (Event × Event)} {d : Deap σ Ideal} (h : Inv l d) {ρ ρz : Nat → Option Bool}
    (hρ : ∀ p ∈ l, ∀ i, i < p.1.out.len → ρ (p.1.out.start + i) = ρz (p.2.out.start + i)) {ss zs : List Slice}
    (hz : List.Forall₂ (Tr l) ss zs) :
    ss.mapM (readSlice (values ρ (l.map (·.1)))) = zs.mapM (readSlice (values ρz d.zk.prog)) := by
  induction hz with
  | nil => rfl
  | cons h1 _ ih => rw [List.mapM_cons, List.mapM_cons, h.read hρ h1, ih]

/-- The events do the same, given the arguments. -/
inductive Match (l : List (Event × Event)) : Event → Event → Prop
  | alloc (m z : Slice) : Match l (.alloc m) (.alloc z)
  | call (c : Circuit) (args args' : List Slice) (m z : Slice) (h : List.Forall₂ (Tr l) args args') :
      Match l (.call c args m) (.call c args' z)

/-- A pair is added. -/
theorem Inv.insert {l : List (Event × Event)} {d d' : Deap σ Ideal} (h : Inv l d) {e e' : Event} (hm : Match l e e') {n : Nat}
    (he : e'.out = ⟨d.zk.next, n⟩) (hi : d.map.insert e.out e'.out = some d'.map) (ho : d'.outputs = d.outputs)
    (hz : d'.zk = { d.zk with next := d.zk.next + n, prog := d.zk.prog ++ [e'] }) : Inv (l ++ [(e, e')]) d' := by
  have hmap := h.map.insert hi
  have hmap' : d'.map.Ok ((l ++ [(e, e')]).map fun p => (p.1.out, p.2.out)) := by simpa using hmap
  have hle : d.zk.Le d'.zk := by rw [hz]; exact .append he
  have hasc : (l ++ [(e, e')]).Pairwise fun p q => p.2.out.stop ≤ q.2.out.start := by
    rw [List.pairwise_append]
    refine ⟨h.asc, by simp, fun p hp q hq => ?_⟩
    obtain rfl := List.mem_singleton.1 hq
    rw [he]
    exact h.bound p hp
  refine ⟨hmap', ?_, hasc, ?_, ?_⟩
  · intro p hp
    rcases List.mem_append.1 hp with hp | hp
    · exact le_trans (h.bound p hp) hle.next
    · obtain rfl := List.mem_singleton.1 hp
      rw [hz, he]
      exact le_refl _
  · intro ρ ρz hρ p hp i hi'
    have hρ' : ∀ p ∈ l, ∀ i, i < p.1.out.len → ρ (p.1.out.start + i) = ρz (p.2.out.start + i) :=
      fun p hp => hρ p (List.mem_append_left _ hp)
    rw [List.map_append, List.map_cons, List.map_nil, values_append, hz]
    simp only
    rw [values_append]
    rcases List.mem_append.1 hp with hp | hp
    · rw [addEvent_out, addEvent_out, h.vals ρ ρz hρ' p hp i hi']
      · left
        have h1 := h.bound p hp
        have h2 := h.map.len _ (List.mem_map.2 ⟨p, hp, rfl⟩)
        rw [he]
        simp only [Slice.stop] at h1 h2 ⊢
        omega
      · left
        have h1 := hmap'.asc
        rw [List.map_append, List.pairwise_append] at h1
        have h2 := h1.2.2 _ (List.mem_map.2 ⟨p, hp, rfl⟩) (e.out, e'.out) (by simp)
        simp only [Slice.stop] at h2
        omega
    · obtain rfl := List.mem_singleton.1 hp
      have h2 := hmap'.len (e.out, e'.out) (by simp)
      simp only at h2 hi' ⊢
      rw [addEvent_in hi', addEvent_in (h2 ▸ hi')]
      cases hm with
      | alloc m z => exact hρ (.alloc m, .alloc z) (by simp) i hi'
      | call c args args' m z ha =>
        simp only [Event.value]
        rw [h.reads hρ' ha]
  · intro x hx
    rw [ho] at hx
    obtain ⟨z, h1, h2⟩ := h.outs x hx
    exact ⟨z, prefix_getElem? hle.futures h1, h2.append _⟩

end Tlsn.DualExec
