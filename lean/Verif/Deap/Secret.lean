import Verif.Deap.Props

/-! # The private inputs of the follower stay out of the ZK VM until the end -/

namespace Tlsn.DualExec

/-- What holds in the ideal VM: only marked inputs are assigned or committed. -/
structure Ideal.Ok (v : Ideal) : Prop where
  assigned : ∀ a, (v.assigned a).isSome = true → (v.marked a).isSome = true
  committed : ∀ a, v.committed a = true → (v.marked a).isSome = true

/-- Whether a call commits inputs. -/
def VmCall.isCommit : VmCall → Bool
  | .commit _ => true
  | _ => false

theorem Ideal.mark_marked (v : Ideal) (s : Slice) (vis : Vis) (a : Nat) (h : (v.marked a).isSome = true) :
    ((Ideal.mark s vis v).1.marked a).isSome = true := by
  unfold Ideal.mark
  split
  · simp only
    split
    · rfl
    · exact h
  · exact h

theorem Ideal.mark_rest (v : Ideal) (s : Slice) (vis : Vis) :
    (Ideal.mark s vis v).1.assigned = v.assigned ∧ (Ideal.mark s vis v).1.committed = v.committed := by
  unfold Ideal.mark
  split <;> exact ⟨rfl, rfl⟩

theorem Ideal.perform_marked (v : Ideal) (c : VmCall) (a : Nat) (h : (v.marked a).isSome = true) :
    ((Ideal.perform c v).1.marked a).isSome = true := by
  cases c with
  | markPublic s => exact v.mark_marked s _ a h
  | markPrivate s => exact v.mark_marked s _ a h
  | markBlind s => exact v.mark_marked s _ a h
  | alloc n => exact h
  | execute => exact h
  | assign s data => simp only [Ideal.perform]; split <;> exact h
  | commit s => simp only [Ideal.perform]; split <;> exact h
  | decode s => simp only [Ideal.perform]; split <;> exact h
  | call c => simp only [Ideal.perform]; split <;> exact h

theorem Ideal.perform_committed (v : Ideal) (c : VmCall) (h : c.isCommit = false) : (Ideal.perform c v).1.committed = v.committed := by
  cases c with
  | markPublic s => exact (v.mark_rest s _).2
  | markPrivate s => exact (v.mark_rest s _).2
  | markBlind s => exact (v.mark_rest s _).2
  | alloc n => rfl
  | execute => rfl
  | assign s data => simp only [Ideal.perform]; split <;> rfl
  | commit s => cases h
  | decode s => simp only [Ideal.perform]; split <;> rfl
  | call c => simp only [Ideal.perform]; split <;> rfl

theorem Ideal.Ok.mark {v : Ideal} (h : v.Ok) (s : Slice) (vis : Vis) : (Ideal.mark s vis v).1.Ok := by
  obtain ⟨h1, h2⟩ := v.mark_rest s vis
  exact ⟨fun a ha => v.mark_marked s vis a (h.assigned a (by rwa [h1] at ha)), fun a ha => v.mark_marked s vis a (h.committed a (by rwa [h2] at ha))⟩

theorem Ideal.Ok.perform {v : Ideal} (h : v.Ok) (c : VmCall) : (Ideal.perform c v).1.Ok := by
  cases c with
  | markPublic s => exact h.mark s _
  | markPrivate s => exact h.mark s _
  | markBlind s => exact h.mark s _
  | alloc n => exact ⟨h.1, h.2⟩
  | execute => exact ⟨h.1, h.2⟩
  | assign s data =>
    simp only [Ideal.perform]
    split
    · rename_i hc
      refine ⟨fun a ha => ?_, h.2⟩
      simp only at ha
      split at ha
      · rename_i hs
        obtain ⟨i, hi, rfl⟩ := Slice.has_iff.1 hs
        have := Slice.all_iff.1 hc.2 i hi
        simp only [Bool.and_eq_true, Bool.or_eq_true, beq_iff_eq] at this
        rcases this.1 with h | h <;> rw [h] <;> rfl
      · exact h.1 a ha
    · exact h
  | commit s =>
    simp only [Ideal.perform]
    split
    · rename_i hc
      refine ⟨h.1, fun a ha => ?_⟩
      simp only [Bool.or_eq_true] at ha
      rcases ha with hs | ha
      · obtain ⟨i, hi, rfl⟩ := Slice.has_iff.1 hs
        have := Slice.all_iff.1 hc i hi
        simp only [Bool.or_eq_true, beq_iff_eq] at this
        rcases this with h' | h'
        · rw [h']; rfl
        · exact h.1 _ h'
      · exact h.2 a ha
    · exact h
  | decode s =>
    simp only [Ideal.perform]
    split
    · exact ⟨h.1, h.2⟩
    · exact h
  | call c =>
    simp only [Ideal.perform]
    split
    · exact ⟨h.1, h.2⟩
    · exact h

variable {σ : Type} {B : BSearch} {M : VmApi σ}

/-- The private inputs of the follower are marked in the ZK VM, and not committed. -/
structure Sec (l : List (Event × Event)) (d : Deap σ Ideal) : Prop where
  ok : d.zk.Ok
  inputs : ∀ s ∈ d.followerInputs, ∀ i, i < s.len → s.start + i ∈ d.followerRanges
  cells : ∀ a ∈ d.followerRanges, ∃ p ∈ l, ∃ i, i < p.1.out.len ∧ a = p.1.out.start + i ∧
    (d.zk.marked (p.2.out.start + i)).isSome = true ∧ d.zk.committed (p.2.out.start + i) = false

theorem Sec.mono {l l' : List (Event × Event)} {d : Deap σ Ideal} (h : Sec l d) (hl : l <+: l') : Sec l' d :=
  ⟨h.ok, h.inputs, fun a ha => by obtain ⟨p, hp, h'⟩ := h.cells a ha; exact ⟨p, hl.subset hp, h'⟩⟩

theorem Sec.vms {l : List (Event × Event)} {d : Deap σ Ideal} (h : Sec l d) {d' : Deap σ Ideal} (h1 : d'.zk = d.zk)
    (h2 : d'.followerInputs = d.followerInputs) (h3 : d'.followerRanges = d.followerRanges) : Sec l d' :=
  ⟨h1 ▸ h.ok, by rw [h2, h3]; exact h.inputs, by rw [h3, h1]; exact h.cells⟩

variable {l : List (Event × Event)}

theorem sec_mpc {α : Type} (f : Act σ α) : Pres (Sec l) (onMpc (τ := Ideal) f) := fun _ h => h.vms rfl rfl rfl

theorem sec_zk (c : VmCall) (hc : c.isCommit = false) : Pres (Sec (σ := σ) l) (onZk (Ideal.api.perform c)) := by
  intro d h
  refine ⟨h.ok.perform c, h.inputs, fun a ha => ?_⟩
  obtain ⟨p, hp, i, hi, h1, h2, h3⟩ := h.cells a ha
  exact ⟨p, hp, i, hi, h1, d.zk.perform_marked c _ h2, by
    change (Ideal.perform c d.zk).1.committed _ = false
    rw [d.zk.perform_committed c hc]; exact h3⟩

theorem sec_slice (c : VmCall) (hc : c.isCommit = false) : Pres (Sec (σ := σ) l) (onZk (asSlice (Ideal.api.perform c))) := by
  intro d h
  have := sec_zk c hc d h
  have he : (onZk (asSlice (Ideal.api.perform c)) d).1 = (onZk (Ideal.api.perform c) d).1 := by
    unfold onZk asSlice
    simp only [Act.bind_apply]
    rcases Ideal.api.perform c d.zk with ⟨v, (_ | _ | _) | e | _⟩ <;> rfl
  rw [he]
  exact this

theorem sec_insertMap (m z : Slice) : Pres (Sec (σ := σ) l) (insertMap m z) := by
  intro d h
  unfold insertMap
  split
  · exact h.vms rfl rfl rfl
  · exact h

theorem sec_alloc (n : Nat) : Pres (Sec l) (Deap.alloc M Ideal.api n) :=
  (sec_mpc _).bind fun _ => (sec_slice _ rfl).bind fun _ => (sec_insertMap _ _).bind fun _ => Pres.pure _

theorem sec_assign (s : Slice) (data : List Bool) : Pres (Sec l) (Deap.assign B M Ideal.api s data) :=
  (sec_mpc _).bind fun _ => Pres.bind (Pres.lift _) fun _ => sec_zk _ rfl

theorem sec_markPublic (s : Slice) : Pres (Sec l) (Deap.markPublic B M Ideal.api s) :=
  (sec_mpc _).bind fun _ => Pres.bind (Pres.lift _) fun _ => sec_zk _ rfl

theorem sec_translateAll (ss : List Slice) : Pres (Sec (σ := σ) l) (translateAll B ss) := by
  induction ss with
  | nil => exact Pres.pure _
  | cons s ss ih => exact Pres.bind (Pres.lift _) fun _ => ih.bind fun _ => Pres.pure _

theorem sec_call (c : Call) : Pres (Sec l) (Deap.call B M Ideal.api c) := by
  refine (sec_translateAll _).bind fun args => ?_
  simp only
  split
  · exact (Pres.bind (sec_mpc _) fun _ => (sec_slice _ rfl).bind fun _ => (sec_insertMap _ _).bind fun _ => Pres.pure _)
  · exact Pres.bind (Pres.lift _) fun _ => (Pres.bind (sec_mpc _) fun _ => (sec_slice _ rfl).bind fun _ => (sec_insertMap _ _).bind fun _ => Pres.pure _)

theorem sec_decode (s : Slice) : Pres (Sec l) (Deap.decode B M Ideal.api s) := by
  refine Pres.bind (Pres.lift _) fun z => (sec_zk _ rfl).bind fun o => ?_
  cases o
  · exact Pres.bind (Pres.lift _) fun _ => sec_mpc _
  · exact Pres.bind (Pres.lift _) fun _ => sec_mpc _
  · exact Pres.bind (fun _ h => h.vms rfl rfl rfl) fun _ => sec_mpc _

theorem sec_followerInput {d : Deap σ Ideal} (hi : Inv l d) (h : Sec l d) (s : Slice) : Sec l (Deap.followerInput B Ideal.api s d).1 := by
  unfold Deap.followerInput
  rw [Act.bind_apply]
  cases ht : d.map.tryGet B s with
  | err e => simp only [translate, Act.lift, ht]; exact h
  | panic => simp only [translate, Act.lift, ht]; exact h
  | ok z =>
    simp only [translate, Act.lift, ht]
    rw [Act.bind_apply]
    have htr := hi.translate ht
    by_cases hc : (z.all fun a => d.zk.isInput a && (d.zk.marked a).isNone) = true
    · have hp : onZk (Ideal.api.perform (.markPublic z)) d =
          ({ d with zk := { d.zk with marked := fun a => if z.has a then some .pub else d.zk.marked a } }, .ok .done) := by
        have : Ideal.perform (.markPublic z) d.zk = (_, _) := if_pos hc
        simp only [onZk, Ideal.api, this]
      rw [hp]
      have hok := h.ok.mark z .pub
      rw [show Ideal.mark z .pub d.zk = (_, _) from if_pos hc] at hok
      refine ⟨hok, ?_, ?_⟩
      · intro x hx i hlt
        change x.start + i ∈ d.followerRanges.union (RangeSet.ofRange s.start s.stop)
        rw [RangeSet.mem_union]
        rcases List.mem_append.1 hx with hx | hx
        · exact Or.inl (h.inputs x hx i hlt)
        · obtain rfl := List.mem_singleton.1 hx
          exact Or.inr (RangeSet.mem_ofRange.2 ⟨Nat.le_add_right _ _, by unfold Slice.stop; omega⟩)
      · intro a ha
        change a ∈ d.followerRanges.union (RangeSet.ofRange s.start s.stop) at ha
        rw [RangeSet.mem_union] at ha
        rcases ha with ha | ha
        · obtain ⟨p, hp, i, hlt, h1, h2, h3⟩ := h.cells a ha
          refine ⟨p, hp, i, hlt, h1, ?_, h3⟩
          change (if z.has (p.2.out.start + i) then some Vis.pub else d.zk.marked (p.2.out.start + i)).isSome = true
          split
          · rfl
          · exact h2
        · obtain ⟨h1, h2⟩ := RangeSet.mem_ofRange.1 ha
          have hs : a - s.start < s.len := by unfold Slice.stop at h2; omega
          obtain ⟨p, hp, hin, hst⟩ := htr.2 (by omega)
          have hx1 := hin.1
          have hx2 := hin.2
          refine ⟨p, hp, a - p.1.out.start, by omega, by omega, ?_, ?_⟩
          · change (if z.has (p.2.out.start + (a - p.1.out.start)) then some Vis.pub else d.zk.marked (p.2.out.start + (a - p.1.out.start))).isSome = true
            rw [if_pos (Slice.has_iff.2 ⟨a - s.start, by rw [htr.1]; exact hs, by omega⟩)]
            rfl
          · change d.zk.committed (p.2.out.start + (a - p.1.out.start)) = false
            have hn := Slice.all_iff.1 hc (a - s.start) (by rw [htr.1]; exact hs)
            rw [show z.start + (a - s.start) = p.2.out.start + (a - p.1.out.start) by omega] at hn
            simp only [Bool.and_eq_true] at hn
            cases hcm : d.zk.committed (p.2.out.start + (a - p.1.out.start)) with
            | false => rfl
            | true =>
              have := h.ok.committed _ hcm
              rw [Option.isNone_iff_eq_none.1 hn.2] at this
              cases this
    · have hp : onZk (Ideal.api.perform (.markPublic z)) d = (d, .err ()) := by
        have : Ideal.perform (.markPublic z) d.zk = (_, _) := if_neg hc
        simp only [onZk, Ideal.api, this]
      rw [hp]
      exact h

theorem sec_markPrivate {d : Deap σ Ideal} (hi : Inv l d) (h : Sec l d) (s : Slice) : Sec l (Deap.markPrivate B M Ideal.api s d).1 := by
  unfold Deap.markPrivate
  rw [Act.bind_apply]
  have hp := pres_mpc (d0 := d) (M.perform (.markPrivate s)) d (.refl d)
  have hs := sec_mpc (l := l) (M.perform (.markPrivate s)) d h
  revert hp hs
  rcases onMpc (M.perform (.markPrivate s)) d with ⟨d1, o | e | _⟩ <;> intro hp hs
  · simp only
    rw [Act.bind_apply]
    simp only [Act.lift]
    cases d1.role
    · exact Pres.bind (Pres.lift _) (fun _ => sec_zk _ rfl) _ hs
    · exact sec_followerInput (hi.same hp) hs s
  · exact hs
  · exact hs

theorem sec_markBlind {d : Deap σ Ideal} (hi : Inv l d) (h : Sec l d) (s : Slice) : Sec l (Deap.markBlind B M Ideal.api s d).1 := by
  unfold Deap.markBlind
  rw [Act.bind_apply]
  have hp := pres_mpc (d0 := d) (M.perform (.markBlind s)) d (.refl d)
  have hs := sec_mpc (l := l) (M.perform (.markBlind s)) d h
  revert hp hs
  rcases onMpc (M.perform (.markBlind s)) d with ⟨d1, o | e | _⟩ <;> intro hp hs
  · simp only
    rw [Act.bind_apply]
    simp only [Act.lift]
    cases d1.role
    · exact sec_followerInput (hi.same hp) hs s
    · exact Pres.bind (Pres.lift _) (fun _ => sec_zk _ rfl) _ hs
  · exact hs
  · exact hs

/-- The translations of different cells are different. -/
theorem cell_inj {d : Deap σ Ideal} (hi : Inv l d) {p q : Event × Event} (hp : p ∈ l) (hq : q ∈ l) {i j : Nat} (h1 : i < p.1.out.len)
    (h2 : j < q.1.out.len) (h : p.2.out.start + i = q.2.out.start + j) : p.1.out.start + i = q.1.out.start + j := by
  have l1 := hi.map.len _ (List.mem_map.2 ⟨p, hp, rfl⟩)
  have l2 := hi.map.len _ (List.mem_map.2 ⟨q, hq, rfl⟩)
  simp only at l1 l2
  obtain ⟨m, hm, rfl⟩ := List.mem_iff_getElem.1 hp
  obtain ⟨n, hn, rfl⟩ := List.mem_iff_getElem.1 hq
  have hpw := List.pairwise_iff_getElem.1 hi.asc
  rcases Nat.lt_trichotomy m n with hlt | rfl | hgt
  · have := hpw m n hm hn hlt; unfold Slice.stop at this; omega
  · omega
  · have := hpw n m hn hm hgt; unfold Slice.stop at this; omega

theorem sec_commitZk {d0 : Deap σ Ideal} (hi : Inv l d0) (r : Rng) (hr : ∀ a, r.1 ≤ a → a < r.2 → a ∉ d0.followerRanges) :
    Pres (fun d => Same d0 d ∧ d.followerRanges = d0.followerRanges ∧ Sec l d) (commitZk B Ideal.api r) := by
  rintro d ⟨hsm, hf, h⟩
  refine ⟨pres_commitZk r d hsm, ?_⟩
  unfold commitZk
  rw [Act.bind_apply]
  cases ht : d.map.tryGet B ⟨r.1, r.2 - r.1⟩ with
  | err e => simp only [translate, Act.lift, ht]; exact ⟨hf, h⟩
  | panic => simp only [translate, Act.lift, ht]; exact ⟨hf, h⟩
  | ok z =>
    simp only [translate, Act.lift, ht]
    rw [Act.bind_apply]
    have hid := hi.same hsm
    have htr := hid.translate ht
    by_cases hc : (z.all fun a => d.zk.marked a == some .blind || (d.zk.assigned a).isSome) = true
    · have hp : onZk (Ideal.api.perform (.commit z)) d =
          ({ d with zk := { d.zk with committed := fun a => z.has a || d.zk.committed a } }, .ok .done) := by
        have : Ideal.perform (.commit z) d.zk = (_, _) := if_pos hc
        simp only [onZk, Ideal.api, this]
      rw [hp]
      have hok := h.ok.perform (.commit z)
      rw [show Ideal.perform (.commit z) d.zk = (_, _) from if_pos hc] at hok
      refine ⟨hf, hok, h.inputs, fun a ha => ?_⟩
      change a ∈ d.followerRanges at ha
      obtain ⟨p, hp, i, hlt, h1, h2, h3⟩ := h.cells a ha
      refine ⟨p, hp, i, hlt, h1, h2, ?_⟩
      change (z.has (p.2.out.start + i) || d.zk.committed (p.2.out.start + i)) = false
      rw [h3, Bool.or_false]
      by_contra hh
      rw [Bool.not_eq_false] at hh
      obtain ⟨j, hj, he⟩ := Slice.has_iff.1 hh
      have hl := htr.1
      simp only at hl
      obtain ⟨q, hq, hin, hst⟩ := htr.2 (by simp only; omega)
      have hx1 := hin.1
      have hx2 := hin.2
      simp only at hst hx1 hx2
      have := cell_inj hid hp hq hlt (j := r.1 - q.1.out.start + j) (by omega) (by omega)
      rw [hf] at ha
      exact hr a (by omega) (by omega) ha
    · have hp : onZk (Ideal.api.perform (.commit z)) d = (d, .err ()) := by
        have : Ideal.perform (.commit z) d.zk = (_, _) := if_neg hc
        simp only [onZk, Ideal.api, this]
      rw [hp]
      exact ⟨hf, h⟩

theorem sec_commit {d : Deap σ Ideal} (hi : Inv l d) (h : Sec l d) (s : Slice) : Sec l (Deap.commit B M Ideal.api s d).1 := by
  unfold Deap.commit
  rw [Act.bind_apply]
  simp only [Act.lift]
  have key : ∀ rs : List Rng, (∀ r ∈ rs, ∀ a, r.1 ≤ a → a < r.2 → a ∉ d.followerRanges) →
      Pres (fun d' => Same d d' ∧ d'.followerRanges = d.followerRanges ∧ Sec l d') (Act.forEach (commitZk B Ideal.api) rs) := by
    intro rs hrs
    induction rs with
    | nil => exact Pres.pure ()
    | cons r rs ih => exact (sec_commitZk hi r (hrs r (by simp))).bind fun _ => ih fun r' hr' => hrs r' (by simp [hr'])
  have h1 := key ((RangeSet.ofRange s.start s.stop).diff d.followerRanges).ranges (by
    intro r hr a h1 h2 hn
    have : a ∈ (RangeSet.ofRange s.start s.stop).diff d.followerRanges := RangeSet.mem_def.2 ⟨r, hr, h1, h2⟩
    exact (RangeSet.mem_diff.1 this).2 hn)
  exact (Pres.bind (P := fun d' => Same d d' ∧ d'.followerRanges = d.followerRanges ∧ Sec l d') h1
    (fun _ d' hd => ⟨pres_mpc _ d' hd.1, hd.2.1, sec_mpc _ d' hd.2.2⟩) d ⟨.refl d, rfl, h⟩).2.2

/-- Whether a call commits inputs in the ZK VM directly. -/
def DCall.zkCommit : DCall → Bool
  | .zk c => c.isCommit
  | .deap _ => false

theorem step_sec {d : Deap σ Ideal} (hi : Inv l d) (h : Sec l d) (c : DCall) (hc : c.zkCommit = false) :
    Sec l (d.step B M Ideal.api c).1 := by
  cases c with
  | zk c => exact sec_zk c hc d h
  | deap c =>
    cases c with
    | alloc n => exact sec_alloc n d h
    | assign s data => exact sec_assign s data d h
    | commit s => exact sec_commit hi h s
    | markPublic s => exact sec_markPublic s d h
    | markPrivate s => exact sec_markPrivate hi h s
    | markBlind s => exact sec_markBlind hi h s
    | decode s => exact sec_decode s d h
    | call c => exact sec_call c d h
    | execute => exact sec_mpc _ d h

theorem run_sec (cs : List DCall) (hcs : ∀ c ∈ cs, c.zkCommit = false) {l : List (Event × Event)} {d : Deap σ Ideal} (hi : Inv l d)
    (h : Sec l d) : ∃ l', Inv l' (d.run B M Ideal.api cs).1 ∧ Sec l' (d.run B M Ideal.api cs).1 := by
  induction cs generalizing l d with
  | nil => exact ⟨l, hi, h⟩
  | cons c cs ih =>
    obtain ⟨l1, h1, h2, -⟩ := deap_step_inv (B := B) (M := M) hi c
    exact ih (fun c' hc' => hcs c' (by simp [hc'])) h1 ((step_sec hi h c (hcs c (by simp))).mono h2)

theorem sec_new (role : Role) (mpc : σ) (fill : Nat → Bool) : Sec [] (Deap.new role mpc (Ideal.new fill)) :=
  ⟨⟨by simp [Deap.new, Ideal.new], by simp [Deap.new, Ideal.new]⟩, by simp [Deap.new], by simp [Deap.new]⟩

/-! ## The list of the follower's inputs -/

/-- The list has only grown. -/
def Listed (d0 d : Deap σ Ideal) : Prop := d.role = d0.role ∧ d0.followerInputs <+: d.followerInputs

variable {d0 : Deap σ Ideal}

theorem listed_mpc {α : Type} (f : Act σ α) : Pres (Listed d0) (onMpc f) := fun _ h => h

theorem listed_zk {α : Type} (f : Act Ideal α) : Pres (Listed d0) (onZk f) := fun _ h => h

theorem listed_insertMap (m z : Slice) : Pres (Listed d0) (insertMap m z) := by
  intro d h
  unfold insertMap
  split <;> exact h

theorem listed_translateAll (ss : List Slice) : Pres (Listed d0) (translateAll B ss) := by
  induction ss with
  | nil => exact Pres.pure _
  | cons s ss ih => exact Pres.bind (Pres.lift _) fun _ => ih.bind fun _ => Pres.pure _

theorem listed_followerInput (s : Slice) : Pres (Listed d0) (Deap.followerInput B Ideal.api s) :=
  Pres.bind (Pres.lift _) fun _ => (listed_zk _).bind fun _ =>
    Pres.bind (fun _ h => ⟨h.1, h.2.trans (List.prefix_append _ _)⟩) fun _ => Pres.pure _

theorem step_listed (c : DCall) : Pres (Listed d0) (fun d => d.step B M Ideal.api c) := by
  cases c with
  | zk c => exact listed_zk _
  | deap c =>
    cases c with
    | alloc n => exact (listed_mpc _).bind fun _ => (listed_zk _).bind fun _ => (listed_insertMap _ _).bind fun _ => Pres.pure _
    | assign s data => exact (listed_mpc _).bind fun _ => Pres.bind (Pres.lift _) fun _ => listed_zk _
    | commit s =>
      exact Pres.bind (Pres.lift _) fun _ => (Pres.forEach (fun _ => Pres.bind (Pres.lift _) fun _ => (listed_zk _).bind fun _ =>
        Pres.pure _) _).bind fun _ => listed_mpc _
    | markPublic s => exact (listed_mpc _).bind fun _ => Pres.bind (Pres.lift _) fun _ => listed_zk _
    | markPrivate s =>
      refine (listed_mpc _).bind fun _ => (Pres.lift _).bind fun role => ?_
      cases role
      · exact Pres.bind (Pres.lift _) fun _ => listed_zk _
      · exact listed_followerInput s
    | markBlind s =>
      refine (listed_mpc _).bind fun _ => (Pres.lift _).bind fun role => ?_
      cases role
      · exact listed_followerInput s
      · exact Pres.bind (Pres.lift _) fun _ => listed_zk _
    | decode s =>
      refine Pres.bind (Pres.lift _) fun z => (listed_zk _).bind fun o => ?_
      cases o
      · exact Pres.bind (Pres.lift _) fun _ => listed_mpc _
      · exact Pres.bind (Pres.lift _) fun _ => listed_mpc _
      · exact Pres.bind (fun _ h => h) fun _ => listed_mpc _
    | call c =>
      refine (listed_translateAll _).bind fun args => ?_
      simp only
      split
      · exact (Pres.bind (listed_mpc _) fun _ => (listed_zk _).bind fun _ => (listed_insertMap _ _).bind fun _ => Pres.pure _)
      · exact Pres.bind (Pres.lift _) fun _ =>
          (Pres.bind (listed_mpc _) fun _ => (listed_zk _).bind fun _ => (listed_insertMap _ _).bind fun _ => Pres.pure _)
    | execute => exact listed_mpc _

theorem followerInput_ok {s : Slice} {d d' : Deap σ Ideal} {o : VmOut} (h : Deap.followerInput B Ideal.api s d = (d', .ok o)) :
    s ∈ d'.followerInputs := by
  obtain ⟨d1, z, h1, k1⟩ := Act.bind_ok h
  obtain ⟨d2, _, h2, k2⟩ := Act.bind_ok k1
  cases k2
  simp

/-- The call by which a party marks a private input of the follower. -/
def markFollower (role : Role) (s : Slice) : DCall :=
  match role with
  | .leader => .deap (.markBlind s)
  | .follower => .deap (.markPrivate s)

theorem step_listed_mark {d : Deap σ Ideal} {s : Slice} {d' : Deap σ Ideal} {o : VmOut}
    (h : d.step B M Ideal.api (markFollower d.role s) = (d', .ok o)) : s ∈ d'.followerInputs := by
  cases hr : d.role with
  | leader =>
    rw [hr] at h
    obtain ⟨d1, _, h1, k1⟩ := Act.bind_ok (show Deap.markBlind B M Ideal.api s d = (d', .ok o) from h)
    obtain ⟨m, -, rfl⟩ := onMpc_ok h1
    obtain ⟨d2, role, h2, k2⟩ := Act.bind_ok k1
    injection h2 with e1 e2
    injection e2 with e2
    subst e1
    obtain rfl : role = .leader := e2.symm.trans hr
    exact followerInput_ok k2
  | follower =>
    rw [hr] at h
    obtain ⟨d1, _, h1, k1⟩ := Act.bind_ok (show Deap.markPrivate B M Ideal.api s d = (d', .ok o) from h)
    obtain ⟨m, -, rfl⟩ := onMpc_ok h1
    obtain ⟨d2, role, h2, k2⟩ := Act.bind_ok k1
    injection h2 with e1 e2
    injection e2 with e2
    subst e1
    obtain rfl : role = .follower := e2.symm.trans hr
    exact followerInput_ok k2

theorem run_listed (cs : List DCall) (d : Deap σ Ideal) : Listed d (d.run B M Ideal.api cs).1 ∧
    ∀ s o, (markFollower d.role s, .ok o) ∈ (d.run B M Ideal.api cs).2 → s ∈ (d.run B M Ideal.api cs).1.followerInputs := by
  induction cs generalizing d with
  | nil => exact ⟨⟨rfl, List.prefix_rfl⟩, by simp [Deap.run]⟩
  | cons c cs ih =>
    have h1 : Listed d (d.step B M Ideal.api c).1 := step_listed (B := B) (M := M) (d0 := d) c d ⟨rfl, List.prefix_rfl⟩
    obtain ⟨h2, h3⟩ := ih (d.step B M Ideal.api c).1
    refine ⟨⟨h2.1.trans h1.1, h1.2.trans h2.2⟩, fun s o hm => ?_⟩
    simp only [Deap.run, List.mem_cons] at hm
    rcases hm with hm | hm
    · injection hm with e1 e2
      subst e1
      exact h2.2.subset (step_listed_mark (Prod.ext rfl e2.symm))
    · exact h3 s o (by rw [h1.1]; exact hm)

end Tlsn.DualExec

namespace Tlsn

open DualExec

/-- C72: the private inputs of the follower (marked `private` by the follower and `blind` by the leader) are not committed in the ZK VM,
where they would be public, before the parties finalize, unless the caller commits them there directly; and they are once a party has
finalized. -/
theorem C72_secret_until_end {σ : Type} (B : BSearch) (M : VmApi σ) (role : Role) (mpc : σ) (fill : Nat → Bool) (calls : List DCall)
    (hc : ∀ c ∈ calls, c.zkCommit = false) :
    let r := (Deap.new role mpc (Ideal.new fill)).run B M Ideal.api calls
    ∀ s o, (markFollower role s, .ok o) ∈ r.2 →
      (∀ i z, i < s.len → r.1.map.tryGet B ⟨s.start + i, 1⟩ = .ok z → r.1.zk.committed z.start = false) ∧
      ∀ d', Deap.finalize B M Ideal.api r.1 = (d', .ok ()) →
        ∃ z, r.1.map.tryGet B s = .ok z ∧ ∀ i, i < z.len → d'.zk.committed (z.start + i) = true := by
  intro r s o hm
  have hs : s ∈ r.1.followerInputs := (run_listed (B := B) (M := M) calls (Deap.new role mpc (Ideal.new fill))).2 s o hm
  obtain ⟨l, hi, h⟩ := run_sec (B := B) (M := M) calls hc (inv_new role mpc (Ideal.new fill)) (sec_new role mpc fill)
  refine ⟨fun i z hlt ht => ?_, fun d' hf => C72_published B M r.1 d' hf s hs⟩
  obtain ⟨p, hp, j, hj, h1, h2, h3⟩ := h.cells _ (h.inputs s hs i hlt)
  have htr := hi.translate ht
  obtain ⟨q, hq, hin, hst⟩ := htr.2 Nat.one_pos
  have hx1 := hin.1
  have hx2 := hin.2
  simp only at hx1 hx2 hst
  have : q = p := pair_unique hi hq hp (a := s.start + i) (Slice.has_iff.2 ⟨s.start + i - q.1.out.start, by omega, by omega⟩)
    (Slice.has_iff.2 ⟨j, hj, h1⟩)
  subst this
  rw [hst, show s.start + i - q.1.out.start = j by omega]
  exact h3

end Tlsn
