import Verif.Deap.Inv

/-! # What the operations of a DEAP VM do -/

namespace Tlsn.DualExec

variable {σ : Type} {B : BSearch} {M : VmApi σ}

/-- Only the VMs, and the lists of the follower's inputs, may have changed. -/
structure Same (d0 d : Deap σ Ideal) : Prop where
  map : d.map = d0.map
  outputs : d.outputs = d0.outputs
  role : d.role = d0.role
  zk : d0.zk.Le d.zk

theorem Same.refl (d : Deap σ Ideal) : Same d d := ⟨rfl, rfl, rfl, .refl _⟩

theorem Same.trans {a b c : Deap σ Ideal} (h : Same a b) (h' : Same b c) : Same a c :=
  ⟨h'.map.trans h.map, h'.outputs.trans h.outputs, h'.role.trans h.role, h.zk.trans h'.zk⟩

theorem Inv.same {l : List (Event × Event)} {d d' : Deap σ Ideal} (h : Inv l d) (hs : Same d d') : Inv l d' := h.grow hs.map hs.outputs hs.zk

variable {d0 : Deap σ Ideal}

theorem pres_mpc {α : Type} (f : Act σ α) : Pres (Same d0) (onMpc f) := fun _ h => ⟨h.map, h.outputs, h.role, h.zk⟩

theorem pres_zk (c : VmCall) : Pres (Same d0) (onZk (Ideal.perform c)) :=
  fun d h => ⟨h.map, h.outputs, h.role, h.zk.trans (d.zk.le_perform c)⟩

theorem pres_zk' (c : VmCall) : Pres (Same d0) (onZk (Ideal.api.perform c)) := pres_zk c

theorem pres_translate (s : Slice) : Pres (Same d0) (translate B s) := Pres.lift _

theorem pres_assign (s : Slice) (data : List Bool) : Pres (Same d0) (Deap.assign B M Ideal.api s data) :=
  (pres_mpc _).bind fun _ => (pres_translate s).bind fun _ => pres_zk' _

theorem pres_commitZk (r : Rng) : Pres (Same d0) (commitZk B Ideal.api r) :=
  (pres_translate _).bind fun _ => (pres_zk' _).bind fun _ => Pres.pure ()

theorem pres_commit (s : Slice) : Pres (Same d0) (Deap.commit B M Ideal.api s) :=
  (Pres.lift _).bind fun _ => (Pres.forEach pres_commitZk _).bind fun _ => pres_mpc _

theorem pres_markPublic (s : Slice) : Pres (Same d0) (Deap.markPublic B M Ideal.api s) :=
  (pres_mpc _).bind fun _ => (pres_translate s).bind fun _ => pres_zk' _

theorem pres_followerInput (s : Slice) : Pres (Same d0) (Deap.followerInput B Ideal.api s) :=
  (pres_translate _).bind fun _ => (pres_zk' _).bind fun _ =>
    Pres.bind (fun _ h => ⟨h.map, h.outputs, h.role, h.zk⟩) fun _ => Pres.pure _

theorem pres_markPrivate (s : Slice) : Pres (Same d0) (Deap.markPrivate B M Ideal.api s) :=
  (pres_mpc _).bind fun _ => (Pres.lift _).bind fun role => by
    cases role
    · exact (pres_translate _).bind fun _ => pres_zk' _
    · exact pres_followerInput s

theorem pres_markBlind (s : Slice) : Pres (Same d0) (Deap.markBlind B M Ideal.api s) :=
  (pres_mpc _).bind fun _ => (Pres.lift _).bind fun role => by
    cases role
    · exact pres_followerInput s
    · exact (pres_translate _).bind fun _ => pres_zk' _

theorem pres_translateAll (l : List Slice) : Pres (Same d0) (translateAll B l) := by
  induction l with
  | nil => exact Pres.pure _
  | cons s l ih => exact (pres_translate s).bind fun _ => ih.bind fun _ => Pres.pure _

theorem pres_decodeInputs (l : List Slice) : Pres (Same d0) (decodeInputs M l) := by
  induction l with
  | nil => exact Pres.pure _
  | cons s l ih =>
    refine (pres_mpc _).bind fun o => ?_
    cases o
    · exact Pres.lift _
    · exact Pres.lift _
    · exact ih.bind fun _ => Pres.pure _

theorem pres_publishInput (x : Slice × Nat) : Pres (Same d0) (publishInput B M Ideal.api x) := by
  refine (pres_translate _).bind fun z => (Pres.lift _).bind fun role => ?_
  cases role
  · refine (Pres.lift _).bind fun o => ?_
    cases o
    · exact (Pres.lift _).bind fun _ => (pres_zk' _).bind fun _ => Pres.pure _
    · exact (pres_zk' _).bind fun _ => (pres_zk' _).bind fun _ => Pres.pure _
  · exact (pres_zk' _).bind fun _ => Pres.pure _

theorem pres_checkOutput (x : Slice × Nat) : Pres (Same d0) (checkOutput M Ideal.api x) := by
  refine (Pres.lift _).bind fun o => ?_
  cases o
  · exact Pres.pure _
  · refine (Pres.lift _).bind fun o => ?_
    cases o
    · exact Pres.lift _
    · simp only
      split
      · exact Pres.lift _
      · exact Pres.pure _

/-! ## What succeeded -/

theorem onMpc_ok {α : Type} {f : Act σ α} {d d' : Deap σ Ideal} {a : α} (h : onMpc f d = (d', .ok a)) :
    ∃ m, f d.mpc = (m, .ok a) ∧ d' = { d with mpc := m } := by
  unfold onMpc at h
  injection h with h1 h2
  exact ⟨(f d.mpc).1, Prod.ext rfl h2, h1.symm⟩

theorem onZk_ok {α : Type} {f : Act Ideal α} {d d' : Deap σ Ideal} {a : α} (h : onZk f d = (d', .ok a)) :
    ∃ z, f d.zk = (z, .ok a) ∧ d' = { d with zk := z } := by
  unfold onZk at h
  injection h with h1 h2
  exact ⟨(f d.zk).1, Prod.ext rfl h2, h1.symm⟩

theorem translate_ok {s z : Slice} {d d' : Deap σ Ideal} (h : translate B s d = (d', .ok z)) : d.map.tryGet B s = .ok z ∧ d' = d := by
  unfold translate Act.lift at h
  injection h with h1 h2
  exact ⟨h2, h1.symm⟩

theorem translateAll_ok {l : List (Event × Event)} {ss zs : List Slice} {d d' : Deap σ Ideal} (hi : Inv l d)
    (h : translateAll B ss d = (d', .ok zs)) : List.Forall₂ (Tr l) ss zs ∧ d' = d := by
  induction ss generalizing zs d' with
  | nil => cases h; exact ⟨.nil, rfl⟩
  | cons s ss ih =>
    obtain ⟨d1, z, h1, k1⟩ := Act.bind_ok h
    obtain ⟨h3, rfl⟩ := translate_ok h1
    obtain ⟨d2, zs', h4, k2⟩ := Act.bind_ok k1
    obtain ⟨h5, rfl⟩ := ih h4
    cases k2
    exact ⟨.cons (hi.translate h3) h5, rfl⟩

theorem insertMap_cases (m z : Slice) (d : Deap σ Ideal) :
    (insertMap m z d = (d, .panic)) ∨ ∃ map, d.map.insert m z = some map ∧ insertMap m z d = ({ d with map }, .ok ()) := by
  unfold insertMap
  cases h : d.map.insert m z with
  | none => exact Or.inl rfl
  | some map => exact Or.inr ⟨map, rfl, rfl⟩

/-- The result of an allocation or a call: nothing was inserted, or a pair of events that correspond. -/
def Inserted (l : List (Event × Event)) (d : Deap σ Ideal) (r : Deap σ Ideal × Outcome Unit VmOut) (e : Slice → Event) : Prop :=
  ((∀ o, r.2 ≠ .ok o) ∧ Same d r.1) ∨
  ∃ m e', r.2 = .ok (.slice m) ∧ Inv (l ++ [(e m, e')]) r.1 ∧ r.1.outputs = d.outputs ∧ r.1.role = d.role ∧ d.zk.Le r.1.zk

theorem alloc_inserted {l : List (Event × Event)} {d : Deap σ Ideal} (hi : Inv l d) (n : Nat) :
    Inserted l d (Deap.alloc M Ideal.api n d) Event.alloc := by
  have hp := pres_mpc (d0 := d) (asSlice (M.perform (.alloc n))) d (.refl d)
  unfold Deap.alloc
  rw [Act.bind_apply]
  revert hp
  rcases onMpc (asSlice (M.perform (.alloc n))) d with ⟨d1, m | e | _⟩ <;> intro hp
  · simp only at hp ⊢
    have hz : onZk (asSlice (Ideal.api.perform (.alloc n))) d1 =
        ({ d1 with zk := { d1.zk with next := d1.zk.next + n, prog := d1.zk.prog ++ [.alloc ⟨d1.zk.next, n⟩] } }, .ok ⟨d1.zk.next, n⟩) := rfl
    rw [Act.bind_apply, hz]
    simp only
    rw [Act.bind_apply]
    have hle : d1.zk.Le { d1.zk with next := d1.zk.next + n, prog := d1.zk.prog ++ [.alloc ⟨d1.zk.next, n⟩] } := .append rfl
    rcases insertMap_cases m ⟨d1.zk.next, n⟩
      { d1 with zk := { d1.zk with next := d1.zk.next + n, prog := d1.zk.prog ++ [.alloc ⟨d1.zk.next, n⟩] } } with h | ⟨map, h1, h⟩
    · rw [h]
      exact Or.inl ⟨fun o ho => (by cases ho), ⟨hp.map, hp.outputs, hp.role, hp.zk.trans hle⟩⟩
    · rw [h]
      refine Or.inr ⟨m, .alloc ⟨d1.zk.next, n⟩, rfl, ?_, hp.outputs, hp.role, hp.zk.trans hle⟩
      exact (hi.same hp).insert (.alloc _ _) rfl h1 rfl rfl
  · exact Or.inl ⟨fun o ho => (by cases ho), hp⟩
  · exact Or.inl ⟨fun o ho => (by cases ho), hp⟩

theorem call_inserted {l : List (Event × Event)} {d : Deap σ Ideal} (hi : Inv l d) (c : Call) :
    Inserted l d (Deap.call B M Ideal.api c d) (Event.call c.circ c.args) := by
  have ht := pres_translateAll (B := B) (d0 := d) c.args d (.refl d)
  have htr := fun zs d' => translateAll_ok (B := B) (ss := c.args) (zs := zs) (d' := d') hi
  unfold Deap.call
  rw [Act.bind_apply]
  revert ht htr
  rcases translateAll B c.args d with ⟨d1, args | e | _⟩ <;> intro ht htr
  · obtain ⟨ha, rfl⟩ := htr args d1 rfl
    simp only
    by_cases hv : ({ circ := c.circ, args := args } : Call).valid
    · rw [if_pos hv]
      have hp := pres_mpc (d0 := d1) (asSlice (M.perform (.call c))) d1 (.refl d1)
      rw [Act.bind_apply]
      revert hp
      rcases onMpc (asSlice (M.perform (.call c))) d1 with ⟨d2, m | e | _⟩ <;> intro hp
      · simp only at hp ⊢
        rw [Act.bind_apply]
        by_cases hb : args.all (fun s => decide (s.stop ≤ d2.zk.next)) = true
        · have hz : onZk (asSlice (Ideal.api.perform (.call ⟨c.circ, args⟩))) d2 =
              ({ d2 with zk := { d2.zk with
                  next := d2.zk.next + c.circ.output
                  prog := d2.zk.prog ++ [.call c.circ args ⟨d2.zk.next, c.circ.output⟩] } }, .ok ⟨d2.zk.next, c.circ.output⟩) := by
            have hc : Ideal.perform (.call ⟨c.circ, args⟩) d2.zk = (_, _) := if_pos ⟨hv, hb⟩
            simp only [onZk, asSlice, Act.bind_apply, Ideal.api, hc]
            rfl
          rw [hz]
          simp only
          rw [Act.bind_apply]
          have hle : d2.zk.Le { d2.zk with
              next := d2.zk.next + c.circ.output
              prog := d2.zk.prog ++ [.call c.circ args ⟨d2.zk.next, c.circ.output⟩] } := .append rfl
          rcases insertMap_cases m ⟨d2.zk.next, c.circ.output⟩ { d2 with zk := { d2.zk with
              next := d2.zk.next + c.circ.output
              prog := d2.zk.prog ++ [.call c.circ args ⟨d2.zk.next, c.circ.output⟩] } } with h | ⟨map, h1, h⟩
          · rw [h]
            exact Or.inl ⟨fun o ho => (by cases ho), ⟨hp.map, hp.outputs, hp.role, hp.zk.trans hle⟩⟩
          · rw [h]
            refine Or.inr ⟨m, .call c.circ args ⟨d2.zk.next, c.circ.output⟩, rfl, ?_, hp.outputs, hp.role, hp.zk.trans hle⟩
            exact (hi.same hp).insert (.call _ _ _ _ _ ha) rfl h1 rfl rfl
        · have hz : onZk (asSlice (Ideal.api.perform (.call ⟨c.circ, args⟩))) d2 = (d2, .err ()) := by
            have hc : Ideal.perform (.call ⟨c.circ, args⟩) d2.zk = (_, _) := if_neg (fun h => hb h.2)
            simp only [onZk, asSlice, Act.bind_apply, Ideal.api, hc]
          rw [hz]
          exact Or.inl ⟨fun o ho => (by cases ho), hp⟩
      · exact Or.inl ⟨fun o ho => (by cases ho), hp⟩
      · exact Or.inl ⟨fun o ho => (by cases ho), hp⟩
    · rw [if_neg hv]
      exact Or.inl ⟨fun o ho => (by cases ho), .refl _⟩
  · exact Or.inl ⟨fun o ho => (by cases ho), ht⟩
  · exact Or.inl ⟨fun o ho => (by cases ho), ht⟩

/-! ## One call -/

/-- What is known after a call that succeeded. -/
def Done (l : List (Event × Event)) (d : Deap σ Ideal) : DCall × Outcome Unit VmOut → Prop
  | (.deap (.decode s), .ok _) => ∃ id, (s, id) ∈ d.outputs
  | (.deap (.assign s data), .ok _) =>
    data.length = s.len ∧ ∃ z, Tr l s z ∧ ∀ i, i < s.len → d.zk.assigned (z.start + i) = data[i]?
  | _ => True

theorem Done.mono {l l' : List (Event × Event)} {d d' : Deap σ Ideal} {x : DCall × Outcome Unit VmOut} (h : Done l d x) (hl : l <+: l')
    (ho : d.outputs <+: d'.outputs) (hz : d.zk.Le d'.zk) : Done l' d' x := by
  obtain ⟨c, r⟩ := x
  cases c with
  | zk c => trivial
  | deap c =>
    cases c with
    | decode s =>
      cases r with
      | ok o =>
        obtain ⟨id, hid⟩ := h
        exact ⟨id, ho.subset hid⟩
      | err e => trivial
      | panic => trivial
    | assign s data =>
      cases r with
      | ok o =>
        obtain ⟨h1, z, h2, h3⟩ := h
        refine ⟨h1, z, ⟨h2.1, fun hs => ?_⟩, fun i hi => ?_⟩
        · obtain ⟨p, hp, h⟩ := h2.2 hs
          exact ⟨p, hl.subset hp, h⟩
        · have hd : data[i]? = some data[i] := List.getElem?_eq_getElem (h1 ▸ hi)
          rw [hd]
          exact hz.assigned _ _ (by rw [h3 i hi, hd])
      | err e => trivial
      | panic => trivial
    | _ => trivial

theorem deap_step_inv {l : List (Event × Event)} {d : Deap σ Ideal} (hi : Inv l d) (c : DCall) :
    ∃ l', Inv l' (d.step B M Ideal.api c).1 ∧ l <+: l' ∧ l'.map (·.1) = l.map (·.1) ++ (eventOf (c, (d.step B M Ideal.api c).2)).toList ∧
      d.outputs <+: (d.step B M Ideal.api c).1.outputs ∧ d.zk.Le (d.step B M Ideal.api c).1.zk ∧
      (d.step B M Ideal.api c).1.role = d.role ∧ Done l' (d.step B M Ideal.api c).1 (c, (d.step B M Ideal.api c).2) := by
  have same : ∀ {r : Deap σ Ideal × Outcome Unit VmOut} {c : DCall}, Same d r.1 → eventOf (c, r.2) = none → Done l r.1 (c, r.2) →
      ∃ l', Inv l' r.1 ∧ l <+: l' ∧ l'.map (·.1) = l.map (·.1) ++ (eventOf (c, r.2)).toList ∧
        d.outputs <+: r.1.outputs ∧ d.zk.Le r.1.zk ∧ r.1.role = d.role ∧ Done l' r.1 (c, r.2) := by
    intro r c hs he hd
    exact ⟨l, hi.same hs, List.prefix_rfl, by simp [he], hs.outputs ▸ List.prefix_rfl, hs.zk, hs.role, hd⟩
  have ins : ∀ {r : Deap σ Ideal × Outcome Unit VmOut} {c : DCall} {e : Slice → Event}, Inserted l d r e →
      (∀ m, eventOf (c, .ok (.slice m)) = some (e m)) → (∀ o, (∀ a, o ≠ .ok a) → eventOf (c, o) = none) → (∀ l d o, Done (σ := σ) l d (c, o)) →
      ∃ l', Inv l' r.1 ∧ l <+: l' ∧ l'.map (·.1) = l.map (·.1) ++ (eventOf (c, r.2)).toList ∧
        d.outputs <+: r.1.outputs ∧ d.zk.Le r.1.zk ∧ r.1.role = d.role ∧ Done l' r.1 (c, r.2) := by
    intro r c e h he hn hd
    rcases h with ⟨h1, hs⟩ | ⟨m, e', h1, h2, h3, h4, h5⟩
    · exact same hs (hn _ h1) (hd _ _ _)
    · exact ⟨_, h2, List.prefix_append _ _, by rw [h1, he]; simp, h3 ▸ List.prefix_rfl, h5, h4, hd _ _ _⟩
  cases c with
  | zk c => exact same (pres_zk c d (.refl d)) rfl trivial
  | deap c =>
    cases c with
    | alloc n => exact ins (alloc_inserted hi n) (fun m => rfl) (fun o ho => by cases o with | ok a => exact absurd rfl (ho a) | _ => rfl) (fun _ _ _ => trivial)
    | call c => exact ins (call_inserted hi c) (fun m => rfl) (fun o ho => by cases o with | ok a => exact absurd rfl (ho a) | _ => rfl) (fun _ _ _ => trivial)
    | commit s => exact same (pres_commit s d (.refl d)) rfl trivial
    | markPublic s => exact same (pres_markPublic s d (.refl d)) rfl trivial
    | markPrivate s => exact same (pres_markPrivate s d (.refl d)) rfl trivial
    | markBlind s => exact same (pres_markBlind s d (.refl d)) rfl trivial
    | execute => exact same (pres_mpc _ d (.refl d)) rfl trivial
    | assign s data =>
      refine same (pres_assign s data d (.refl d)) rfl ?_
      change Done l (Deap.assign B M Ideal.api s data d).1 (.deap (.assign s data), (Deap.assign B M Ideal.api s data d).2)
      rcases hr : Deap.assign B M Ideal.api s data d with ⟨d', o | e | _⟩
      · obtain ⟨d1, o1, h1, k1⟩ := Act.bind_ok hr
        obtain ⟨m, -, rfl⟩ := onMpc_ok h1
        obtain ⟨d2, z, h2, k2⟩ := Act.bind_ok k1
        obtain ⟨h3, rfl⟩ := translate_ok h2
        obtain ⟨v, h4, rfl⟩ := onZk_ok k2
        have ht : Tr l s z := hi.translate h3
        simp only [Ideal.api, Ideal.perform] at h4
        split at h4
        · rename_i hc
          cases h4
          refine ⟨hc.1.trans ht.1, z, ht, fun i hi' => ?_⟩
          simp only
          rw [if_pos (Slice.has_iff.2 ⟨i, by rw [ht.1]; exact hi', rfl⟩), Nat.add_sub_cancel_left]
        · cases h4
      · trivial
      · trivial
    | decode s =>
      change ∃ l', Inv l' (Deap.decode B M Ideal.api s d).1 ∧ l <+: l' ∧
        l'.map (·.1) = l.map (·.1) ++ (eventOf (.deap (.decode s), (Deap.decode B M Ideal.api s d).2)).toList ∧
        d.outputs <+: (Deap.decode B M Ideal.api s d).1.outputs ∧ d.zk.Le (Deap.decode B M Ideal.api s d).1.zk ∧
        (Deap.decode B M Ideal.api s d).1.role = d.role ∧
        Done l' (Deap.decode B M Ideal.api s d).1 (.deap (.decode s), (Deap.decode B M Ideal.api s d).2)
      cases ht : d.map.tryGet B s with
      | ok z =>
        by_cases hb : z.stop ≤ d.zk.next
        · have hd : Deap.decode B M Ideal.api s d = onMpc (M.perform (.decode s))
              { d with zk := { d.zk with futures := d.zk.futures ++ [z] }, outputs := d.outputs ++ [(s, d.zk.futures.length)] } := by
            have hc : Ideal.perform (.decode z) d.zk = (_, _) := if_pos hb
            simp only [Deap.decode, Act.bind_apply, translate, Act.lift, ht, onZk, Ideal.api, hc]
            rfl
          rw [hd]
          have hle : d.zk.Le { d.zk with futures := d.zk.futures ++ [z] } :=
            ⟨le_refl _, fun _ _ _ => rfl, List.prefix_append _ _, fun _ _ h => h, fun _ h => h, rfl⟩
          refine ⟨l, ?_, List.prefix_rfl, by simp [eventOf], List.prefix_append _ _, hle, rfl, ?_⟩
          · have h1 : Inv l { d with zk := { d.zk with futures := d.zk.futures ++ [z] } } := hi.grow rfl rfl hle
            refine ⟨h1.map, h1.bound, h1.asc, h1.vals, ?_⟩
            intro x hx
            rcases List.mem_append.1 hx with hx | hx
            · exact h1.outs x hx
            · obtain rfl := List.mem_singleton.1 hx
              exact ⟨z, List.getElem?_concat_length .., hi.translate ht⟩
          · cases (onMpc (M.perform (.decode s)) ({ d with
                zk := { d.zk with futures := d.zk.futures ++ [z] }
                outputs := d.outputs ++ [(s, d.zk.futures.length)] } : Deap σ Ideal)).2
            · exact ⟨d.zk.futures.length, by simp [onMpc]⟩
            · trivial
            · trivial
        · have hd : Deap.decode B M Ideal.api s d = (d, .err ()) := by
            have hc : Ideal.perform (.decode z) d.zk = (_, _) := if_neg hb
            simp only [Deap.decode, Act.bind_apply, translate, Act.lift, ht, onZk, Ideal.api, hc]
          rw [hd]
          exact same (r := (d, .err ())) (.refl d) rfl trivial
      | err e =>
        have hd : Deap.decode B M Ideal.api s d = (d, .err e) := by
          simp only [Deap.decode, Act.bind_apply, translate, Act.lift, ht]
        rw [hd]
        exact same (r := (d, .err e)) (.refl d) rfl trivial
      | panic =>
        have hd : Deap.decode B M Ideal.api s d = (d, .panic) := by
          simp only [Deap.decode, Act.bind_apply, translate, Act.lift, ht]
        rw [hd]
        exact same (r := (d, .panic)) (.refl d) rfl trivial

theorem deap_run_inv (cs : List DCall) {l : List (Event × Event)} {d : Deap σ Ideal} (hi : Inv l d) :
    ∃ l', Inv l' (d.run B M Ideal.api cs).1 ∧ l <+: l' ∧ l'.map (·.1) = l.map (·.1) ++ eventsOf (d.run B M Ideal.api cs).2 ∧
      d.outputs <+: (d.run B M Ideal.api cs).1.outputs ∧ d.zk.Le (d.run B M Ideal.api cs).1.zk ∧
      (d.run B M Ideal.api cs).1.role = d.role ∧ ∀ x ∈ (d.run B M Ideal.api cs).2, Done l' (d.run B M Ideal.api cs).1 x := by
  induction cs generalizing l d with
  | nil => exact ⟨l, hi, List.prefix_rfl, by simp [Deap.run, eventsOf], List.prefix_rfl, .refl _, rfl, by simp [Deap.run]⟩
  | cons c cs ih =>
    obtain ⟨l1, h1, h2, h3, h4, h5, h6, h7⟩ := deap_step_inv (B := B) (M := M) hi c
    obtain ⟨l2, k1, k2, k3, k4, k5, k6, k7⟩ := ih h1
    refine ⟨l2, k1, h2.trans k2, ?_, h4.trans k4, h5.trans k5, k6.trans h6, ?_⟩
    · rw [k3, h3, List.append_assoc]
      congr 1
      simp only [Deap.run, eventsOf, List.filterMap_cons]
      cases eventOf (c, (d.step B M Ideal.api c).2) <;> rfl
    · intro x hx
      simp only [Deap.run, List.mem_cons] at hx
      rcases hx with rfl | hx
      · exact h7.mono k2 k4 k5
      · exact k7 x hx

end Tlsn.DualExec
