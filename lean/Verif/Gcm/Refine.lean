import Verif.Gcm.Steps

namespace Tlsn.Gcm

/-! ## The resources of the record layer model -/

/-- The resources as the record layer model counts them: `name` gives the block of an allocation number. -/
structure Abs (name : Nat → CtrBlock) (vm : Vm) (g : Gcm) (a : Aead) : Prop where
  input : a.input = g.input.len
  keystream : g.keystream = a.keystream.blocks.map name
  j0s : g.j0s.map (·.1) = a.j0s.map name
  assigned : ∀ x ∈ a.assigned, Holds vm (name x.1).nonce x.2.1 ∧ Holds vm (name x.1).counter (beBytes 4 x.2.2)

/-- The same success, or the same error. -/
def Agree {α : Type} : Outcome GcmError α → Except RlError Unit → Prop
  | .ok _, .ok _ => True
  | .err .cipher, .error .cipher => True
  | .err .tag, .error .tag => True
  | _, _ => False

structure Inv (role : Role) (key iv : Ref) (name : Nat → CtrBlock) (vm : Vm) (g : Gcm) (a : Aead) : Prop where
  ok : GcmOk role key iv vm g
  ready : Ready role vm g
  abs : Abs name vm g a

theorem Abs.later {a b : Vm} (h : Later a b) {name : Nat → CtrBlock} {g : Gcm} {x : Aead} (hx : Abs name a g x) : Abs name b g x :=
  ⟨hx.input, hx.keystream, hx.j0s, fun y hy => ⟨(hx.assigned y hy).1.later h, (hx.assigned y hy).2.later h⟩⟩

theorem Disj.sub {r s : Ref} (h : Disj r s) {k l : Nat} (hk : k + l ≤ s.len) : Disj r ⟨s.addr + k, l⟩ := by
  simp only [Disj] at h ⊢; omega

theorem Free.sub {vm : Vm} {s : Ref} (h : Free vm s) {k l : Nat} (hk : k + l ≤ s.len) : Free vm ⟨s.addr + k, l⟩ := by
  refine ⟨?_, fun i hi => by
    simp only at hi ⊢
    rw [Nat.add_assoc]; exact h.free (k + i) (by omega)⟩
  have := h.may
  simp only [Vm.mayAssign, List.any_eq_true, decide_eq_true_eq] at this ⊢
  obtain ⟨m, h1, h2, h3, h4⟩ := this
  exact ⟨m, h1, by omega, by omega, h4⟩

/-- With fewer blocks and less input. -/
theorem Ready.less {role : Role} {vm : Vm} {g g' : Gcm} (h : Ready role vm g) (hs : g'.blockRefs.Sublist g.blockRefs)
    (ha : g'.input.addr = g.input.addr) (hl : g'.input.len ≤ g.input.len) : Ready role vm g' := by
  have he : g'.input = ⟨g.input.addr + 0, g'.input.len⟩ := by rw [Nat.add_zero, ← ha]
  refine ⟨h.sound, fun r hr => h.free r (hs.subset hr), h.apart.sublist hs, fun r hr => ?_, fun e => ?_⟩
  · rw [he]; exact (h.input r (hs.subset hr)).sub (by omega)
  · rw [he]; exact (h.leader e).sub (by omega)

theorem inputsOf_sublist {a b : List CtrBlock} (h : a.Sublist b) : (inputsOf a).Sublist (inputsOf b) := by
  induction h with
  | slnil => exact .slnil
  | cons x _ ih => exact ih.trans (List.sublist_append_right [x.nonce, x.counter] _)
  | cons_cons x _ ih => exact ih.append_left [x.nonce, x.counter]

theorem Ready.cut {role : Role} {vm : Vm} {g : Gcm} (h : Ready role vm g) {rest got : List CtrBlock} (he : rest ++ got = g.keystream)
    {n : Nat} (hn : n ≤ g.input.len) : Ready role vm { g with input := ⟨g.input.addr, n⟩, keystream := rest } :=
  h.less (by
    refine List.Sublist.append_left (inputsOf_sublist ?_) _
    rw [← he]
    exact List.sublist_append_left _ _) rfl hn

/-- Assignments to the blocks succeed, and leave what is apart from them. -/
theorem assignKs_free {nonce : Bytes} (hn : nonce.length = 8) (bs : List CtrBlock) (ctr : Nat) (vm : Vm)
    (hl : ∀ b ∈ bs, b.nonce.len = 8 ∧ b.counter.len = 4) (hf : ∀ r ∈ inputsOf bs, Free vm r) (hd : (inputsOf bs).Pairwise Disj) :
    ∃ vm', assignKs nonce bs ctr vm = (vm', true) ∧ (Sound vm → Sound vm') ∧
      ∀ r, (∀ x ∈ inputsOf bs, Disj r x) → Free vm r → Free vm' r := by
  induction bs generalizing ctr vm with
  | nil => exact ⟨vm, rfl, id, fun _ _ h => h⟩
  | cons b bs ih =>
    have hin : inputsOf (b :: bs) = b.nonce :: b.counter :: inputsOf bs := rfl
    rw [hin] at hf hd
    rw [List.pairwise_cons, List.pairwise_cons] at hd
    obtain ⟨d1, d2, d3⟩ := hd
    obtain ⟨vm1, a1⟩ := assign_free (b := nonce) (hf b.nonce (by simp)) (by rw [hn, (hl b (by simp)).1])
    obtain ⟨vm2, a2⟩ := assign_free (b := beBytes 4 ctr) (Disj.free a1 (d1 b.counter (by simp)).symm (hf b.counter (by simp)))
      (by rw [beBytes_length, (hl b (by simp)).2])
    obtain ⟨vm3, e, e1, e2⟩ := ih (ctr + 1) vm2 (fun x hx => hl x (by simp [hx])) (fun r hr =>
      Disj.free a2 (d2 r hr).symm (Disj.free a1 (d1 r (by simp [hr])).symm (hf r (by simp [hr])))) d3
    refine ⟨vm3, by simp only [assignKs, a1, a2, e], fun hs => e1 ((hs.assign a1).assign a2), fun r hr hfr => ?_⟩
    rw [hin] at hr
    exact e2 r (fun x hx => hr x (by simp [hx])) (Disj.free a2 (hr _ (by simp)) (Disj.free a1 (hr _ (by simp)) hfr))

theorem CtrOk.lens {ns : List Node} {key iv : Ref} {bs : List CtrBlock} (h : ∀ b ∈ bs, CtrOk ns key iv b) :
    ∀ b ∈ bs, b.nonce.len = 8 ∧ b.counter.len = 4 := fun b hb => ⟨(h b hb).nonceLen, (h b hb).counterLen⟩

/-- The consumed material is apart from what is left. -/
theorem Ready.got {role : Role} {vm : Vm} {g : Gcm} (h : Ready role vm g) {rest got : List CtrBlock} (he : rest ++ got = g.keystream)
    (input : Ref) :
    (∀ r ∈ inputsOf got, Free vm r) ∧ (inputsOf got).Pairwise Disj ∧
    (∀ r ∈ ({ g with input := input, keystream := rest } : Gcm).blockRefs, ∀ x ∈ inputsOf got, Disj r x) ∧
    (∀ x ∈ inputsOf got, Disj x g.input) := by
  have hr : g.blockRefs = inputsOf (g.j0s.map (·.1)) ++ inputsOf rest ++ inputsOf got := by
    rw [Gcm.blockRefs, ← he, inputsOf_append, List.append_assoc]
  have hp := h.apart
  rw [hr, List.pairwise_append] at hp
  refine ⟨fun r hx => h.free r (by rw [hr]; simp [hx]), hp.2.1, fun r hx x hx' => hp.2.2 r hx x hx', fun x hx => h.input x (by rw [hr]; simp [hx])⟩

theorem KsHolds.assign {vm : Vm} {nonce : Bytes} {name : Nat → CtrBlock} {ids : List Nat} {ctr : Nat}
    (h : KsHolds vm nonce (ids.map name) ctr) : ∀ x ∈ (Keystream.mk ids).assign nonce ctr,
      Holds vm (name x.1).nonce x.2.1 ∧ Holds vm (name x.1).counter (beBytes 4 x.2.2) := by
  intro x hx
  obtain ⟨i, hi⟩ := List.mem_iff_getElem?.1 hx
  rw [show ((Keystream.mk ids).assign nonce ctr)[i]? = (ids[i]?).map fun id => (id, nonce, ctr + i) by simp [Keystream.assign]] at hi
  cases hid : ids[i]? with
  | none => rw [hid] at hi; cases hi
  | some id =>
    rw [hid] at hi
    cases hi
    clear hx
    induction ids generalizing ctr i with
    | nil => cases hid
    | cons y ids ih =>
      cases i with
      | zero => cases hid; exact ⟨h.1, h.2.1⟩
      | succ i =>
        have := ih h.2.2 i (by simpa using hid)
        rw [show ctr + (i + 1) = ctr + 1 + i by omega]
        exact this

theorem consume_abs {name : Nat → CtrBlock} (a : Keystream) (len : Nat) :
    (a.consume len = none ∧ consume (a.blocks.map name) len = .error .insufficient) ∨
    ∃ rest got, a.consume len = some (⟨rest⟩, ⟨got⟩) ∧ consume (a.blocks.map name) len = .ok (rest.map name, got.map name) := by
  simp only [Keystream.consume, consume, List.length_map]
  by_cases h : divCeil16 len > a.blocks.length
  · rw [if_pos h, if_pos h]; exact .inl ⟨rfl, rfl⟩
  · rw [if_neg h, if_neg h]
    exact .inr ⟨_, _, rfl, by rw [List.map_take, List.map_drop]⟩

theorem apply_refines {role : Role} {key iv : Ref} {name : Nat → CtrBlock} {vm : Vm} {g : Gcm} {a : Aead}
    (h : Inv role key iv name vm g a) (nonce : Bytes) (len : Nat) (hlen : len + 16 ≤ 2 ^ 64) :
    Inv role key iv name (g.applyKeystream role vm nonce len).2.1 (g.applyKeystream role vm nonce len).1 (a.applyKeystream nonce len).1 ∧
      Agree (g.applyKeystream role vm nonce len).2.2 (a.applyKeystream nonce len).2 := by
  have hstep := applyKeystream_ok h.ok nonce len
  obtain ⟨hg, hr, ha⟩ := h
  by_cases hn : nonce.length = 8
  case neg => 
    have e1 : g.applyKeystream role vm nonce len = (g, vm, .err .cipher) := if_pos hn
    have e2 : a.applyKeystream nonce len = (a, .error .cipher) := if_pos hn
    rw [e1, e2]; exact ⟨⟨hg, hr, ha⟩, trivial⟩
  have hmod : divCeil16 len * 16 % 2 ^ 64 = divCeil16 len * 16 := Nat.mod_eq_of_lt (by simp only [divCeil16]; omega)
  by_cases hp : divCeil16 len * 16 > g.input.len
  · have e1 : g.applyKeystream role vm nonce len = (g, vm, .err .cipher) := by
      simp only [Gcm.applyKeystream]; rw [if_neg (by simpa using hn), if_pos hp]
    have e2 : a.applyKeystream nonce len = (a, .error .cipher) := by
      simp only [Aead.applyKeystream]; rw [if_neg (by simpa using hn), hmod, if_pos (by rw [ha.input]; exact hp)]
    rw [e1, e2]; exact ⟨⟨hg, hr, ha⟩, trivial⟩
  have hin : (g.input.splitOff (g.input.len - divCeil16 len * 16)).1 = ⟨g.input.addr, g.input.len - divCeil16 len * 16⟩ := rfl
  rcases consume_abs (name := name) a.keystream (divCeil16 len * 16) with ⟨c1, c2⟩ | ⟨rest, got, c1, c2⟩
  · rw [← ha.keystream] at c2
    have e1 : g.applyKeystream role vm nonce len = ({ g with input := ⟨g.input.addr, g.input.len - divCeil16 len * 16⟩ }, vm, .err .cipher) := by
      simp only [Gcm.applyKeystream]; rw [if_neg (by simpa using hn), if_neg hp]; simp only [c2, hin]
    have e2 : a.applyKeystream nonce len = ({ a with input := a.input - divCeil16 len * 16 }, .error .cipher) := by
      simp only [Aead.applyKeystream]; rw [if_neg (by simpa using hn), hmod, if_neg (by rw [ha.input]; exact hp)]; simp only [c1]
    rw [e1] at hstep
    rw [e1, e2]
    exact ⟨⟨hstep.ok, hr.less (List.Sublist.refl _) rfl (Nat.sub_le _ _), ⟨by simp only; rw [ha.input], ha.keystream, ha.j0s, ha.assigned⟩⟩, trivial⟩
  · rw [← ha.keystream] at c2
    obtain ⟨l1, l2⟩ := consume_ok c2
    rw [show divCeil16 (divCeil16 len * 16) = divCeil16 len by rw [Nat.mul_comm, divCeil16_mul], List.length_map] at l1
    have hcut := hr.cut l2 (n := g.input.len - divCeil16 len * 16) (Nat.sub_le _ _)
    obtain ⟨g1, g2, g3, g4⟩ := hr.got l2 ⟨g.input.addr, g.input.len - divCeil16 len * 16⟩
    have hks : ∀ b ∈ got.map name, CtrOk vm.nodes key iv b := fun b hb => hg.keystream b (by rw [← l2]; exact List.mem_append_right _ hb)
    by_cases he : got = []
    · subst he
      have hz : divCeil16 len = 0 := by simpa using l1.symm
      have e1 : g.applyKeystream role vm nonce len =
          ({ g with input := ⟨g.input.addr, g.input.len - divCeil16 len * 16⟩, keystream := rest.map name }, vm, .err .cipher) := by
        simp only [Gcm.applyKeystream]; rw [if_neg (by simpa using hn), if_neg hp]; simp only [c2, hin]
        simp only [apply, List.map_nil, Ref.splitOff, List.length_nil]
        rw [if_neg (by omega)]
        simp
      have e2 : a.applyKeystream nonce len = ({ a with input := a.input - divCeil16 len * 16, keystream := ⟨rest⟩ }, .error .cipher) := by
        simp only [Aead.applyKeystream]; rw [if_neg (by simpa using hn), hmod, if_neg (by rw [ha.input]; exact hp)]; simp only [c1]; simp
      rw [e1] at hstep
      rw [e1, e2]
      exact ⟨⟨hstep.ok, hcut, ⟨by simp only; rw [ha.input], rfl, ha.j0s, ha.assigned⟩⟩, trivial⟩
    · have hne : got.map name ≠ [] := by simpa using he
      have hl2 : (g.input.splitOff (g.input.len - divCeil16 len * 16)).2.len = 16 * (got.map name).length := by
        simp only [Ref.splitOff, List.length_map]; omega
      have hin2 : IsInput vm.nodes (g.input.splitOff (g.input.len - divCeil16 len * 16)).2 := hg.input.sub (by omega)
      obtain ⟨vm1, out, ap, hq, hao⟩ := apply_spec hin2.inRange hks hl2 hne
      obtain ⟨vm2, as, as1, as2⟩ := assignKs_free hn (got.map name) 2 vm1 (CtrOk.lens hks) (fun r hx => hq.free (g1 r hx)) g2
      have lks := (assignKs_later nonce (got.map name) 2 vm1).1
      rw [as] at lks
      have hpl : 16 * (got.map name).length = len + (divCeil16 len * 16 - len) := by
        rw [List.length_map, l1]; simp only [divCeil16]; omega
      have hps := padInput_spec (role := role) (vm := vm2) (by rw [hl2]; exact hpl) (by rw [hao.outLen]; exact hpl)
      have hpadref : (⟨(g.input.splitOff (g.input.len - divCeil16 len * 16)).2.addr + len, divCeil16 len * 16 - len⟩ : Ref) =
          ⟨g.input.addr + (g.input.len - divCeil16 len * 16 + len), divCeil16 len * 16 - len⟩ := by
        simp only [Ref.splitOff, Nat.add_assoc]
      have hfree2 : ∀ r, (∀ x ∈ inputsOf (got.map name), Disj r x) → Free vm r → Free vm2 r := fun r hd hf => as2 r hd (hq.free hf)
      have hfin : role = .leader → Free vm2 g.input := fun e => hfree2 _ (fun x hx => (g4 x hx).symm) (hr.leader e)
      cases hpi : padInput role vm2 (g.input.splitOff (g.input.len - divCeil16 len * 16)).2 out (divCeil16 len * 16 - len) len with
      | error vm3 =>
        exfalso
        rw [hpi] at hps
        obtain ⟨-, e, hnf⟩ := hps
        refine hnf ?_
        rw [hpadref]
        exact (hfin e).sub (by simp only [divCeil16] at hp ⊢; omega)
      | ok r =>
        obtain ⟨vm3, i, o⟩ := r
        rw [hpi] at hps
        obtain ⟨p1, p2, p3, p4, p5, p6, p7⟩ := hps
        have e1 : g.applyKeystream role vm nonce len =
            ({ g with input := ⟨g.input.addr, g.input.len - divCeil16 len * 16⟩, keystream := rest.map name }, vm3, .ok (i, o)) := by
          simp only [Gcm.applyKeystream]; rw [if_neg (by simpa using hn), if_neg hp]; simp only [c2, hin, ap, as, hpi]
        have e2 : a.applyKeystream nonce len =
            (⟨a.input - divCeil16 len * 16, ⟨rest⟩, a.j0s, a.assigned ++ (Keystream.mk got).assign nonce 2⟩, .ok ()) := by
          simp only [Aead.applyKeystream]; rw [if_neg (by simpa using hn), hmod, if_neg (by rw [ha.input]; exact hp)]; simp only [c1]
          simp [he]
        rw [e1] at hstep
        rw [e1, e2]
        have hlat : Later vm vm3 := hstep.later
        refine ⟨⟨hstep.ok, ?_, ⟨by simp only; rw [ha.input], rfl, ha.j0s, ?_⟩⟩, trivial⟩
        · rw [hpadref] at p7
          refine ⟨p6 (as1 (hcut.sound.quiet hq)), fun r hx => p7 r ?_ (hfree2 r (g3 r hx) (hcut.free r hx)), hcut.apart, hcut.input, fun e => p7 _ ?_ ?_⟩
          · refine (hr.input r ?_).sub (by simp only [divCeil16] at hp ⊢; omega)
            simp only [Gcm.blockRefs, List.mem_append] at hx ⊢
            rcases hx with hx | hx
            · exact .inl hx
            · refine .inr ?_
              rw [← l2, inputsOf_append]
              exact List.mem_append_left _ hx
          · simp only [Disj]; omega
          · exact (hfin e).sub (k := 0) (by omega)
        · intro x hx
          rcases List.mem_append.1 hx with hx | hx
          · exact ⟨(ha.assigned x hx).1.later hlat, (ha.assigned x hx).2.later hlat⟩
          · have := KsHolds.assign (assignKs_holds as) x hx
            exact ⟨this.1.later p1, this.2.later p1⟩

end Tlsn.Gcm
