import Verif.Gcm.Refine

namespace Tlsn.Gcm

theorem take_refines {role : Role} {key iv : Ref} {name : Nat → CtrBlock} {vm : Vm} {g : Gcm} {a : Aead}
    (h : Inv role key iv name vm g a) (nonce : Bytes) (len : Nat) (hlen : len + 16 ≤ 2 ^ 64) :
    Inv role key iv name (g.takeKeystream vm nonce len).2.1 (g.takeKeystream vm nonce len).1 (a.takeKeystream nonce len).1 ∧
      Agree (g.takeKeystream vm nonce len).2.2 (a.takeKeystream nonce len).2 := by
  have hstep := takeKeystream_ok h.ok nonce len
  obtain ⟨hg, hr, ha⟩ := h
  by_cases hn : nonce.length = 8
  case neg =>
    have e1 : g.takeKeystream vm nonce len = (g, vm, .err .cipher) := if_pos hn
    have e2 : a.takeKeystream nonce len = (a, .error .cipher) := if_pos hn
    rw [e1, e2]; exact ⟨⟨hg, hr, ha⟩, trivial⟩
  have hmod : divCeil16 len * 16 % 2 ^ 64 = divCeil16 len * 16 := Nat.mod_eq_of_lt (by simp only [divCeil16]; omega)
  by_cases hp : divCeil16 len * 16 > g.input.len
  · have e1 : g.takeKeystream vm nonce len = (g, vm, .err .cipher) := by
      simp only [Gcm.takeKeystream]; rw [if_neg (by simpa using hn), if_pos hp]
    have e2 : a.takeKeystream nonce len = (a, .error .cipher) := by
      simp only [Aead.takeKeystream]; rw [if_neg (by simpa using hn), hmod, if_pos (by rw [ha.input]; exact hp)]
    rw [e1, e2]; exact ⟨⟨hg, hr, ha⟩, trivial⟩
  rcases consume_abs (name := name) a.keystream len with ⟨c1, c2⟩ | ⟨rest, got, c1, c2⟩
  · rw [← ha.keystream] at c2
    have e1 : g.takeKeystream vm nonce len = (g, vm, .err .cipher) := by
      simp only [Gcm.takeKeystream]; rw [if_neg (by simpa using hn), if_neg hp]; simp only [c2]
    have e2 : a.takeKeystream nonce len = (a, .error .cipher) := by
      simp only [Aead.takeKeystream]; rw [if_neg (by simpa using hn), hmod, if_neg (by rw [ha.input]; exact hp)]; simp only [c1]
    rw [e1, e2]; exact ⟨⟨hg, hr, ha⟩, trivial⟩
  · rw [← ha.keystream] at c2
    obtain ⟨l1, l2⟩ := consume_ok c2
    have hcut : Ready role vm { g with keystream := rest.map name } := hr.cut l2 (n := g.input.len) (Nat.le_refl _)
    obtain ⟨g1, g2, g3, g4⟩ := hr.got l2 g.input
    have hks : ∀ b ∈ got.map name, CtrOk vm.nodes key iv b := fun b hb => hg.keystream b (by rw [← l2]; exact List.mem_append_right _ hb)
    obtain ⟨vm1, as, as1, as2⟩ := assignKs_free hn (got.map name) 2 vm (CtrOk.lens hks) g1 g2
    have l := (assignKs_later nonce (got.map name) 2 vm).1
    rw [as] at l
    simp only at l
    have hready : Ready role vm1 { g with keystream := rest.map name } :=
      ⟨as1 hcut.sound, fun r hx => as2 r (g3 r hx) (hcut.free r hx), hcut.apart, hcut.input,
        fun e => as2 _ (fun x hx => (g4 x hx).symm) (hr.leader e)⟩
    have habs : Abs name vm1 { g with keystream := rest.map name } { a with keystream := ⟨rest⟩, assigned := a.assigned ++ (Keystream.mk got).assign nonce 2 } :=
      ⟨ha.input, rfl, ha.j0s, fun x hx => by
        rcases List.mem_append.1 hx with hx | hx
        · exact ⟨(ha.assigned x hx).1.later l, (ha.assigned x hx).2.later l⟩
        · exact KsHolds.assign (assignKs_holds as) x hx⟩
    have e2 : a.takeKeystream nonce len = ({ a with keystream := ⟨rest⟩, assigned := a.assigned ++ (Keystream.mk got).assign nonce 2 },
        if len = 0 then .error .cipher else .ok ()) := by
      simp only [Aead.takeKeystream]; rw [if_neg (by simpa using hn), hmod, if_neg (by rw [ha.input]; exact hp)]; simp only [c1]
      split <;> rfl
    by_cases hz : len = 0
    · have e1 : g.takeKeystream vm nonce len = ({ g with keystream := rest.map name }, vm1, .err .cipher) := by
        simp only [Gcm.takeKeystream]; rw [if_neg (by simpa using hn), if_neg hp]; simp only [c2, as]
        simp only [toVector, if_pos hz]
      rw [e1] at hstep
      rw [e1, e2, if_pos hz]
      exact ⟨⟨hstep.ok, hready, habs⟩, trivial⟩
    · obtain ⟨vm2, o, tv, hq, -⟩ := toVector_spec (vm := vm1) (fun b hb => (hks b hb).later l) hz (by rw [l1])
      have e1 : g.takeKeystream vm nonce len = ({ g with keystream := rest.map name }, vm2, .ok ⟨o.addr, len⟩) := by
        simp only [Gcm.takeKeystream]; rw [if_neg (by simpa using hn), if_neg hp]; simp only [c2, as, tv]
      rw [e1] at hstep
      rw [e1, e2, if_neg hz]
      refine ⟨⟨hstep.ok, ?_, habs.later hq.later⟩, trivial⟩
      have hgok : GcmOk role key iv vm1 { g with keystream := rest.map name } := (hg.rest l2 hg.input).later l
      exact hready.grow hq.grow hgok

theorem takeJ0_refines {role : Role} {key iv : Ref} {name : Nat → CtrBlock} {vm : Vm} {g : Gcm} {a : Aead}
    (h : Inv role key iv name vm g a) (nonce : Bytes) (hj : g.j0s ≠ []) :
    Inv role key iv name (g.takeJ0 vm nonce).2.1 (g.takeJ0 vm nonce).1 (a.takeJ0 nonce).1 ∧
      Agree (g.takeJ0 vm nonce).2.2 (a.takeJ0 nonce).2 := by
  have hstep := (takeJ0_ok h.ok nonce hj).1
  obtain ⟨hg, hr, ha⟩ := h
  by_cases hn : nonce.length = 8
  case neg =>
    have e1 : g.takeJ0 vm nonce = (g, vm, .err .cipher) := if_pos hn
    have e2 : a.takeJ0 nonce = (a, .error .cipher) := if_pos hn
    rw [e1, e2]; exact ⟨⟨hg, hr, ha⟩, trivial⟩
  cases hl : g.j0s.getLast? with
  | none => exact absurd (List.getLast?_eq_none_iff.1 hl) hj
  | some j =>
    have hs := getLast?_split hl
    have hla : (a.j0s.map name).getLast? = some j.1 := by rw [← ha.j0s, List.getLast?_map, hl]; rfl
    rw [List.getLast?_map] at hla
    cases hid : a.j0s.getLast? with
    | none => rw [hid] at hla; cases hla
    | some id =>
      rw [hid] at hla
      have hname : name id = j.1 := Option.some.inj hla
      have hm := hg.j0s j (by rw [hs]; simp)
      have hrefs : g.blockRefs = inputsOf (g.j0s.dropLast.map (·.1)) ++ ([j.1.nonce, j.1.counter] ++ inputsOf g.keystream) := by
        rw [Gcm.blockRefs]
        conv => lhs; rw [hs, List.map_append, inputsOf_append, List.append_assoc]
        rfl
      have hap := hr.apart
      rw [hrefs, List.pairwise_append] at hap
      obtain ⟨-, hap2, hap3⟩ := hap
      simp only [List.cons_append, List.nil_append, List.pairwise_cons] at hap2
      obtain ⟨q1, q2, -⟩ := hap2
      obtain ⟨vm1, a1⟩ := assign_free (b := nonce) (hr.free j.1.nonce (by rw [hrefs]; simp)) (by rw [hn, hm.1.nonceLen])
      obtain ⟨vm2, a2⟩ := assign_free (b := beBytes 4 1) (Disj.free a1 (q1 j.1.counter (by simp)).symm (hr.free j.1.counter (by rw [hrefs]; simp)))
        (by rw [beBytes_length, hm.1.counterLen])
      have hcut : Ready role vm { g with j0s := g.j0s.dropLast } := hr.less (by
        rw [hrefs]
        exact List.Sublist.append_left (List.sublist_append_right _ _) _) rfl (Nat.le_refl _)
      have hd : ∀ r ∈ ({ g with j0s := g.j0s.dropLast } : Gcm).blockRefs, Disj r j.1.nonce ∧ Disj r j.1.counter := by
        intro r hx
        simp only [Gcm.blockRefs, List.mem_append] at hx
        rcases hx with hx | hx
        · exact ⟨hap3 r hx _ (by simp), hap3 r hx _ (by simp)⟩
        · exact ⟨(q1 r (by simp [hx])).symm, (q2 r hx).symm⟩
      have hi1 : Disj g.input j.1.nonce := (hr.input _ (by rw [hrefs]; simp)).symm
      have hi2 : Disj g.input j.1.counter := (hr.input _ (by rw [hrefs]; simp)).symm
      have hready := (hcut.assign a1 (fun r hx => (hd r hx).1) (fun _ => hi1)).assign a2 (fun r hx => (hd r hx).2) (fun _ => hi2)
      have e1 : g.takeJ0 vm nonce = ({ g with j0s := g.j0s.dropLast }, vm2, .ok j) := by
        simp only [Gcm.takeJ0]; rw [if_neg (by simpa using hn)]; simp only [hl, a1, a2]
      have e2 : a.takeJ0 nonce = ({ a with j0s := a.j0s.dropLast, assigned := a.assigned ++ [(id, nonce, 1)] }, .ok ()) := by
        simp only [Aead.takeJ0]; rw [if_neg (by simpa using hn)]; simp only [hid]
      rw [e1] at hstep
      rw [e1, e2]
      have hlat : Later vm vm2 := hstep.later
      refine ⟨⟨hstep.ok, hready, ⟨ha.input, ha.keystream, ?_, fun x hx => ?_⟩⟩, trivial⟩
      · simp only
        rw [List.map_dropLast, ha.j0s, List.map_dropLast]
      · rcases List.mem_append.1 hx with hx | hx
        · exact ⟨(ha.assigned x hx).1.later hlat, (ha.assigned x hx).2.later hlat⟩
        · simp only [List.mem_singleton] at hx
          subst hx
          rw [hname]
          exact ⟨(assign_holds a1).later (assign_later a2), assign_holds a2⟩

theorem Agree.ok_iff {α : Type} {o : Outcome GcmError α} {e : Except RlError Unit} (h : Agree o e) : (∃ a, o = .ok a) ↔ e = .ok () := by
  cases o with
  | ok a => cases e with
    | ok u => simp
    | error x => exact h.elim
  | err x => cases e with
    | ok u => cases x <;> exact h.elim
    | error y => simp
  | panic => exact h.elim

theorem takeJ0s_refines {role : Role} {key iv : Ref} {name : Nat → CtrBlock} (ns : List Bytes) {vm : Vm} {g : Gcm} {a : Aead}
    (h : Inv role key iv name vm g a) (hl : ns.length ≤ g.j0s.length) :
    Inv role key iv name (Gcm.takeJ0s ns g vm).2.1 (Gcm.takeJ0s ns g vm).1 (a.takeJ0s ns).1 ∧
      Agree (Gcm.takeJ0s ns g vm).2.2 (a.takeJ0s ns).2 := by
  induction ns generalizing g vm a with
  | nil => exact ⟨h, trivial⟩
  | cons n ns ih =>
    simp only [List.length_cons] at hl
    have hj : g.j0s ≠ [] := by rintro e; rw [e] at hl; simp at hl
    obtain ⟨h1, h2⟩ := takeJ0_refines h n hj
    have hlen := (takeJ0_ok h.ok n hj).2
    unfold Gcm.takeJ0s Aead.takeJ0s
    revert h1 h2 hlen
    rcases g.takeJ0 vm n with ⟨g1, vm1, j | e | _⟩ <;> rcases a.takeJ0 n with ⟨x1, e' | u⟩ <;> intro h1 h2 hlen
    · exact h2.elim
    · have hl1 := hlen j rfl
      simp only at hl1
      obtain ⟨i1, i2⟩ := ih (g := g1) (vm := vm1) (a := x1) h1 (by omega)
      revert i1 i2
      simp only
      rcases Gcm.takeJ0s ns g1 vm1 with ⟨g2, vm2, js | e2 | _⟩ <;> rcases x1.takeJ0s ns with ⟨x2, e2' | u2⟩ <;> intro i1 i2 <;>
        exact ⟨i1, i2⟩
    · exact ⟨h1, by cases e <;> cases e' <;> first | exact h2.elim | trivial⟩
    · cases e <;> exact h2.elim
    · exact h2.elim
    · exact h2.elim

theorem tags_refines {role : Role} {key iv : Ref} {name : Nat → CtrBlock} (ns : List Bytes) {vm : Vm} {g : Gcm} {a : Aead}
    (h : Inv role key iv name vm g a) :
    Inv role key iv name (g.tags vm ns).2.1 (g.tags vm ns).1 (a.tags ns).1 ∧ Agree (g.tags vm ns).2.2 (a.tags ns).2 := by
  have hl : a.j0s.length = g.j0s.length := by
    have := congrArg List.length h.abs.j0s
    simpa using this.symm
  unfold Gcm.tags Aead.tags
  rw [hl]
  split
  · exact ⟨h, trivial⟩
  · exact takeJ0s_refines ns h (by omega)

/-! ## Histories -/

/-- The calls of the record layer model. -/
def absRun (a : Aead) : GcmOp → Aead × Option (Except RlError Unit)
  | .apply n len => let r := a.applyKeystream n len; (r.1, some r.2)
  | .take n len => let r := a.takeKeystream n len; (r.1, some r.2)
  | .tags ns => let r := a.tags ns; (r.1, some r.2)
  | _ => (a, none)

def absRunAll : List GcmOp → Aead → Aead × List (Option (Except RlError Unit))
  | [], a => (a, [])
  | op :: ops, a =>
    let r := absRun a op
    let rest := absRunAll ops r.1
    (rest.1, r.2 :: rest.2)

/-- Lengths that do not overflow, and no assignment to what AES-GCM will assign. -/
def CarefulOp (g : Gcm) : GcmOp → Prop
  | .apply _ len => len + 16 ≤ 2 ^ 64
  | .take _ len => len + 16 ≤ 2 ^ 64
  | .vmAssign r _ => ∀ x ∈ g.input :: g.blockRefs, Disj x r
  | _ => True

def Careful (role : Role) : List GcmOp → Gcm → Vm → Prop
  | [], _, _ => True
  | op :: ops, g, vm => CarefulOp g op ∧ Careful role ops (op.run role g vm).1 (op.run role g vm).2.1

/-- The output of a call is a result if and only if the call of the record layer model succeeds. -/
def OutAgrees : GcmOut → Option (Except RlError Unit) → Prop
  | .applied .., some (.ok ()) => True
  | .taken .., some (.ok ()) => True
  | .tags .., some (.ok ()) => True
  | .none, some (.error _) => True
  | .none, none => True
  | _, _ => False

theorem run_refines {role : Role} {key iv : Ref} {name : Nat → CtrBlock} (op : GcmOp) {vm : Vm} {g : Gcm} {a : Aead}
    (h : Inv role key iv name vm g a) (hc : CarefulOp g op) :
    Inv role key iv name (op.run role g vm).2.1 (op.run role g vm).1 (absRun a op).1 ∧
      OutAgrees (op.run role g vm).2.2 (absRun a op).2 := by
  cases op with
  | apply n len =>
    obtain ⟨h1, h2⟩ := apply_refines h n len hc
    simp only [GcmOp.run, absRun]
    revert h1 h2
    rcases g.applyKeystream role vm n len with ⟨g', vm', _ | e | _⟩ <;> rcases a.applyKeystream n len with ⟨x, e' | u⟩ <;> intro h1 h2
    · exact h2.elim
    · exact ⟨h1, trivial⟩
    · exact ⟨h1, trivial⟩
    · cases e <;> exact h2.elim
    · exact h2.elim
    · exact h2.elim
  | take n len =>
    obtain ⟨h1, h2⟩ := take_refines h n len hc
    simp only [GcmOp.run, absRun]
    revert h1 h2
    rcases g.takeKeystream vm n len with ⟨g', vm', _ | e | _⟩ <;> rcases a.takeKeystream n len with ⟨x, e' | u⟩ <;> intro h1 h2
    · exact h2.elim
    · exact ⟨h1, trivial⟩
    · exact ⟨h1, trivial⟩
    · cases e <;> exact h2.elim
    · exact h2.elim
    · exact h2.elim
  | tags ns =>
    obtain ⟨h1, h2⟩ := tags_refines ns h
    simp only [GcmOp.run, absRun]
    revert h1 h2
    rcases g.tags vm ns with ⟨g', vm', _ | e | _⟩ <;> rcases a.tags ns with ⟨x, e' | u⟩ <;> intro h1 h2
    · exact h2.elim
    · exact ⟨h1, trivial⟩
    · exact ⟨h1, trivial⟩
    · cases e <;> exact h2.elim
    · exact h2.elim
    · exact h2.elim
  | vmAlloc n v =>
    have hq := (alloc_quiet vm n).trans (mark_quiet (vm.alloc n).1 (r := (vm.alloc n).2) (alloc_isInput vm n).inRange v)
    exact ⟨⟨h.ok.later hq.later, h.ready.grow hq.grow h.ok, h.abs.later hq.later⟩, trivial⟩
  | vmCall c args =>
    simp only [GcmOp.run, absRun]
    cases he : vm.call c args with
    | error e => exact ⟨h, trivial⟩
    | ok r =>
      have hq := call_quiet (vm' := r.1) (out := r.2) he
      exact ⟨⟨h.ok.later hq.later, h.ready.grow hq.grow h.ok, h.abs.later hq.later⟩, trivial⟩
  | vmAssign r b =>
    simp only [GcmOp.run, absRun]
    cases he : vm.assign r b with
    | error e => exact ⟨h, trivial⟩
    | ok vm' =>
      have l := assign_later he
      exact ⟨⟨h.ok.later l, h.ready.assign he (fun x hx => hc x (by simp [hx])) (fun _ => hc _ (by simp)), h.abs.later l⟩, trivial⟩

theorem runGcm_refines {role : Role} {key iv : Ref} {name : Nat → CtrBlock} (ops : List GcmOp) {vm : Vm} {g : Gcm} {a : Aead}
    (h : Inv role key iv name vm g a) (hc : Careful role ops g vm) :
    Inv role key iv name (runGcm role ops g vm).2.1 (runGcm role ops g vm).1 (absRunAll ops a).1 ∧
      (absRunAll ops a).2.length = ops.length ∧
      ∀ p ∈ (runGcm role ops g vm).2.2.zip (absRunAll ops a).2, OutAgrees p.1 p.2 := by
  induction ops generalizing vm g a with
  | nil => exact ⟨h, rfl, fun _ h => nomatch h⟩
  | cons op ops ih =>
    obtain ⟨h1, h2⟩ := run_refines op h hc.1
    obtain ⟨i1, i2, i3⟩ := ih h1 hc.2
    refine ⟨i1, by simp [absRunAll, i2], fun p hp => ?_⟩
    simp only [runGcm, absRunAll, List.zip_cons_cons] at hp
    rcases List.mem_cons.1 hp with rfl | hp
    · exact h2
    · exact i3 p hp

/-! ## The allocation -/

/-- The blocks by their allocation numbers: those of the tags first. -/
def blockNamed (g : Gcm) (n : Nat) : CtrBlock := (g.j0s.map (·.1) ++ g.keystream).getD n ⟨⟨0, 0⟩, ⟨0, 0⟩, ⟨0, 0⟩⟩

theorem map_range_getD {α : Type} (l : List α) (d : α) : (List.range l.length).map (fun i => l.getD i d) = l := by
  apply List.ext_getElem?
  intro i
  simp only [List.getElem?_map]
  by_cases hi : i < l.length
  · rw [List.getElem?_range hi]; simp [List.getD_eq_getElem?_getD, List.getElem?_eq_getElem hi]
  · rw [List.getElem?_eq_none (by simpa using hi), List.getElem?_eq_none (by omega)]; rfl

theorem alloc_abs {role : Role} {vm vm' : Vm} {key iv : Ref} {g : Gcm} {records len : Nat} (h : Alloced role vm vm' key iv g records len) :
    Inv role key iv (blockNamed g) vm' g (Aead.alloc records len) := by
  refine ⟨h.ok, h.ready, ⟨h.inputLen.symm, ?_, ?_, fun _ hx => nomatch hx⟩⟩
  · simp only [Aead.alloc, List.map_map]
    have : (blockNamed g ∘ fun x => records + x) = fun i => g.keystream.getD i ⟨⟨0, 0⟩, ⟨0, 0⟩, ⟨0, 0⟩⟩ := by
      funext i
      simp only [Function.comp, blockNamed, List.getD_eq_getElem?_getD]
      rw [List.getElem?_append_right (by simp [h.tags])]
      simp [h.tags]
    rw [this, ← h.blocks, map_range_getD]
  · simp only [Aead.alloc]
    have : (List.range records).map (blockNamed g) = (List.range records).map fun i => (g.j0s.map (·.1)).getD i ⟨⟨0, 0⟩, ⟨0, 0⟩, ⟨0, 0⟩⟩ := by
      refine List.map_congr_left fun i hi => ?_
      simp only [blockNamed, List.getD_eq_getElem?_getD]
      rw [List.getElem?_append_left (by simp only [List.length_map, h.tags]; exact List.mem_range.1 hi)]
    rw [this]
    have e := map_range_getD (g.j0s.map (·.1)) ⟨⟨0, 0⟩, ⟨0, 0⟩, ⟨0, 0⟩⟩
    rw [List.length_map, h.tags] at e
    exact e.symm

end Tlsn.Gcm
