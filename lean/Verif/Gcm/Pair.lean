import Verif.Gcm.Refine2

namespace Tlsn.Gcm

/-! ## Two machines with the same graph -/

/-- The same outcome, with results that are related. -/
def Eqv {ε α β : Type} (R : α → β → Prop) : Outcome ε α → Outcome ε β → Prop
  | .ok a, .ok b => R a b
  | .err e, .err e' => e = e'
  | .panic, .panic => True
  | _, _ => False

theorem Eqv.bind {ε α β α' β' : Type} {R : α → β → Prop} {S : α' → β' → Prop} {x : Outcome ε α} {y : Outcome ε β}
    {f : α → Outcome ε α'} {f' : β → Outcome ε β'} (h : Eqv R x y) (hf : ∀ a b, R a b → Eqv S (f a) (f' b)) : Eqv S (x >>= f) (y >>= f') := by
  cases x <;> cases y <;> first | exact h.elim | exact hf _ _ h | exact h

theorem Eqv.lift {ε ε' α β : Type} {R : α → β → Prop} {x : Outcome ε α} {y : Outcome ε β} {k : ε → ε'} (h : Eqv R x y) :
    Eqv R (liftErr k x) (liftErr k y) := by
  cases x <;> cases y <;> first | exact h.elim | exact congrArg k h | exact h

/-- Results with machines that have the same graph. -/
def SameVm {α : Type} (x y : Vm × α) : Prop := x.1.nodes = y.1.nodes ∧ x.2 = y.2

theorem call_same {v w : Vm} (h : v.nodes = w.nodes) (c : Circ) (args : List Ref) :
    (∃ v' w' o, v.call c args = .ok (v', o) ∧ w.call c args = .ok (w', o) ∧ v'.nodes = w'.nodes) ∨
    (v.call c args = .error .call ∧ w.call c args = .error .call) := by
  unfold Vm.call
  split
  · exact .inl ⟨_, _, _, rfl, by rw [h], by simp [h]⟩
  · exact .inr ⟨rfl, rfl⟩

theorem callOk_same {ε : Type} {v w : Vm} (h : v.nodes = w.nodes) (c : Circ) (args : List Ref) :
    Eqv SameVm (callOk (ε := ε) v c args) (callOk w c args) := by
  unfold callOk
  rcases call_same h c args with ⟨v', w', o, e1, e2, e3⟩ | ⟨e1, e2⟩
  · rw [e1, e2]; exact ⟨e3, rfl⟩
  · rw [e1, e2]; trivial

/-- Results of the cipher: the same cipher, machines with the same graph, the same result. -/
def SameAes {α : Type} (x y : Aes128 × Vm × α) : Prop := x.1 = y.1 ∧ SameVm x.2 y.2

theorem schedule_same {v w : Vm} (h : v.nodes = w.nodes) (c : Aes128) (key : Ref) : Eqv SameAes (c.schedule v key) (c.schedule w key) := by
  unfold Aes128.schedule
  cases c.keySchedule with
  | some ks => exact ⟨rfl, h, rfl⟩
  | none => exact (callOk_same h .aesKs [key]).bind fun a b hab => ⟨by rw [hab.2], hab.1, hab.2⟩

theorem allocBlock_same {v w : Vm} (h : v.nodes = w.nodes) (c : Aes128) (i : Ref) : Eqv SameAes (c.allocBlock v i) (c.allocBlock w i) := by
  unfold Aes128.allocBlock
  cases c.key with
  | none => rfl
  | some key =>
    refine (schedule_same h c key).bind ?_
    rintro ⟨c1, v1, k1⟩ ⟨c2, v2, k2⟩ ⟨rfl, h1, rfl⟩
    exact (callOk_same h1 .aesPost [k1, i]).bind fun a b hab => ⟨rfl, hab.1, hab.2⟩

theorem blockCall_same {v w : Vm} (h : v.nodes = w.nodes) (c : Aes128) (key iv n k : Ref) :
    Eqv SameAes (c.blockCall v key iv n k) (c.blockCall w key iv n k) := by
  unfold Aes128.blockCall
  refine (schedule_same h c key).bind ?_
  rintro ⟨c1, v1, k1⟩ ⟨c2, v2, k2⟩ ⟨rfl, h1, rfl⟩
  exact (callOk_same h1 .aesPost [k1, iv, n, k]).bind fun a b hab => ⟨rfl, hab.1, by simp only; rw [hab.2]⟩

theorem alloc_same {v w : Vm} (h : v.nodes = w.nodes) (n : Nat) (x y : Vis) :
    ((v.alloc n).1.mark (v.alloc n).2 x).nodes = ((w.alloc n).1.mark (w.alloc n).2 y).nodes ∧ (v.alloc n).2 = (w.alloc n).2 := by
  simp [Vm.alloc, Vm.mark, h]

theorem allocCtrBlock_same {v w : Vm} (h : v.nodes = w.nodes) (c : Aes128) : Eqv SameAes (c.allocCtrBlock v) (c.allocCtrBlock w) := by
  unfold Aes128.allocCtrBlock
  cases c.key with
  | none => rfl
  | some key => cases c.iv with
    | none => rfl
    | some iv =>
      obtain ⟨h1, h2⟩ := alloc_same h 8 .pub .pub
      obtain ⟨h3, h4⟩ := alloc_same h1 4 .pub .pub
      simp only [allocPublic]
      rw [h4, h2]
      exact blockCall_same (by simp [Vm.alloc, Vm.mark, h]) c key iv _ _

theorem allocInputs_same (n : Nat) {v w : Vm} (h : v.nodes = w.nodes) : SameVm (allocInputs n v) (allocInputs n w) := by
  induction n generalizing v w with
  | zero => exact ⟨h, rfl⟩
  | succ n ih =>
    have h1 : (v.alloc 8).1.nodes = (w.alloc 8).1.nodes := by simp [Vm.alloc, h]
    have h2 : (v.alloc 8).2 = (w.alloc 8).2 := by simp [Vm.alloc, h]
    have h3 : ((v.alloc 8).1.alloc 4).1.nodes = ((w.alloc 8).1.alloc 4).1.nodes := by simp [Vm.alloc, h]
    have h4 : ((v.alloc 8).1.alloc 4).2 = ((w.alloc 8).1.alloc 4).2 := by simp [Vm.alloc, h]
    have := ih (v := (((v.alloc 8).1.alloc 4).1.mark (v.alloc 8).2 .pub).mark ((v.alloc 8).1.alloc 4).2 .pub)
      (w := (((w.alloc 8).1.alloc 4).1.mark (w.alloc 8).2 .pub).mark ((w.alloc 8).1.alloc 4).2 .pub) h3
    exact ⟨this.1, by simp only [allocInputs]; rw [this.2, h2, h4]⟩

theorem blockCalls_same (key iv : Ref) (is : List (Ref × Ref)) (c : Aes128) {v w : Vm} (h : v.nodes = w.nodes) :
    Eqv SameAes (Aes128.blockCalls key iv c v is) (Aes128.blockCalls key iv c w is) := by
  induction is generalizing c v w with
  | nil => exact ⟨rfl, h, rfl⟩
  | cons i is ih =>
    unfold Aes128.blockCalls
    refine (blockCall_same h c key iv i.1 i.2).bind ?_
    rintro ⟨c1, v1, b1⟩ ⟨c2, v2, b2⟩ ⟨rfl, h1, rfl⟩
    refine (ih c1 h1).bind ?_
    rintro ⟨c3, v3, b3⟩ ⟨c4, v4, b4⟩ ⟨rfl, h2, rfl⟩
    exact ⟨rfl, h2, rfl⟩

theorem allocKeystream_same {v w : Vm} (h : v.nodes = w.nodes) (c : Aes128) (len : Nat) :
    Eqv SameAes (c.allocKeystream v len) (c.allocKeystream w len) := by
  unfold Aes128.allocKeystream
  cases c.key with
  | none => rfl
  | some key => cases c.iv with
    | none => rfl
    | some iv =>
      obtain ⟨h1, h2⟩ := allocInputs_same (divCeil16 len) h
      simp only
      rw [h2]
      exact blockCalls_same key iv _ c h1

/-- Blocks of tags that differ in the pads only. -/
def SameJ0s (a b : List (CtrBlock × Share)) : Prop := a.map (fun j => (j.1, j.2.masked)) = b.map (fun j => (j.1, j.2.masked))

theorem SameJ0s.fst {a b : List (CtrBlock × Share)} (h : SameJ0s a b) : a.map (·.1) = b.map (·.1) := by
  have := congrArg (List.map Prod.fst) h
  rw [List.map_map, List.map_map] at this
  exact this

theorem allocJ0s_same {otps otps' : Nat → Bytes} (ho : ∀ n, (otps n).length = 16) (ho' : ∀ n, (otps' n).length = 16) {key k₀ iv : Ref} (n : Nat)
    (c : Aes128) (v w : Vm) (h : v.nodes = w.nodes) (sv : Sound v) (sw : Sound w) (hk : KeyInUse c v key) (hk' : KeyInUse c w key)
    (h₀ : c.key = some k₀) (hiv : c.iv = some iv) (hil : iv.len = 4) (hir : InRange v iv) :
    ∃ c' v' w' jl jf, allocJ0s .leader otps n c v = .ok (c', v', jl) ∧ allocJ0s .follower otps' n c w = .ok (c', w', jf) ∧
      v'.nodes = w'.nodes ∧ SameJ0s jl jf := by
  induction n generalizing c v w with
  | zero => exact ⟨c, v, w, [], [], rfl, rfl, h, rfl⟩
  | succ n ih =>
    have hirw : InRange w iv := by simp only [InRange] at hir ⊢; rw [← h]; exact hir
    obtain ⟨c1, v1, b, a1, a2, a3, a4, a5⟩ := allocCtrBlock_spec hk h₀ hiv hil hir
    obtain ⟨c1', w1, b', b1, b2, b3, b4, b5⟩ := allocCtrBlock_spec hk' h₀ hiv hil hirw
    have hs := allocCtrBlock_same h c
    rw [a1, b1] at hs
    obtain ⟨hc, hn, hb⟩ := hs
    simp only at hc hn hb
    subst hc hb
    have hbv := a2.ok b (by simp)
    have hbw := b2.ok b (by simp)
    obtain ⟨v2, sl, d1, d2, -, -, d5, d6⟩ := shareNew_spec (role := .leader) (sv.quiet a2.quiet) (v := b.output) (otp := otps n)
      (by rw [hbv.outLen]; omega) hbv.inRange (by rw [hbv.outLen, ho])
    obtain ⟨w2, sf, e1, e2, -, -, e5, e6⟩ := shareNew_spec (role := .follower) (sw.quiet b2.quiet) (v := b.output) (otp := otps' n)
      (by rw [hbw.outLen]; omega) hbw.inRange (by rw [hbw.outLen, ho'])
    have hn2 : v2.nodes = w2.nodes := by rw [d5, e5, hn]
    have hir2 : InRange v2 iv := hir.later (a2.quiet.later.trans d2.later)
    obtain ⟨c3, v3, w3, jl, jf, f1, f2, f3, f4⟩ := ih c1 v2 w2 hn2 (d2.sound (sv.quiet a2.quiet)) (e2.sound (sw.quiet b2.quiet))
      (a3.later d2.later) (b3.later e2.later) (a4.trans h₀) (a5.trans hiv) hir2
    refine ⟨c3, v3, w3, (b, sl) :: jl, (b, sf) :: jf, ?_, ?_, f3, ?_⟩
    · simp only [allocJ0s, a1, liftErr, d1, f1, bind, Outcome.bind]
    · simp only [allocJ0s, b1, liftErr, e1, f2, bind, Outcome.bind]
    · simp only [SameJ0s, List.map_cons, d6, e6, hn]
      congr 1

/-- The states of both parties. -/
structure Pair (gl : Gcm) (vl : Vm) (gf : Gcm) (vf : Vm) : Prop where
  nodes : vl.nodes = vf.nodes
  input : gl.input = gf.input
  keystream : gl.keystream = gf.keystream
  j0s : SameJ0s gl.j0s gf.j0s
  key : gl.ghashKey = gf.ghashKey
  keyShare : gl.ghashShare.masked = gf.ghashShare.masked

theorem alloc_pair {otp otp' : Bytes} {otps otps' : Nat → Bytes} (h1 : otp.length = 16) (h1' : otp'.length = 16)
    (h2 : ∀ n, (otps n).length = 16) (h2' : ∀ n, (otps' n).length = 16) {key k₀ iv : Ref} (c : Aes128) (v w : Vm)
    (h : v.nodes = w.nodes) (sv : Sound v) (sw : Sound w) (hk : KeyInUse c v key) (hk' : KeyInUse c w key)
    (h₀ : c.key = some k₀) (hiv : c.iv = some iv) (hil : iv.len = 4) (hir : InRange v iv) (records len : Nat)
    {cl cf : Aes128} {vl vf : Vm} {gl gf : Gcm} (hl : Gcm.alloc .leader otp otps c v records len = .ok (cl, vl, gl))
    (hf : Gcm.alloc .follower otp' otps' c w records len = .ok (cf, vf, gf)) : Pair gl vl gf vf ∧ cl = cf := by
  have hirw : InRange w iv := by simp only [InRange] at hir ⊢; rw [← h]; exact hir
  obtain ⟨v1, a1, a2, a3, a4, a5⟩ := new_assign sv 16 (v := .pub) (by decide) (b := List.replicate 16 0) (by simp)
  obtain ⟨w1, b1, b2, b3, b4, b5⟩ := new_assign sw 16 (v := .pub) (by decide) (b := List.replicate 16 0) (by simp)
  have n1 : v1.nodes = w1.nodes := by rw [a5, b5, h]
  have hz : (v.alloc 16).2 = (w.alloc 16).2 := by simp [Vm.alloc, h]
  obtain ⟨c2, v2, ks, hkey, d1, d2, d3, d4, d5, d6, d7⟩ := allocBlock_spec (input := (v.alloc 16).2) (hk.later a2.later) h₀ rfl a4.inRange
  obtain ⟨c2', w2, ks', hkey', e1, e2, e3, e4, e5, e6, e7⟩ := allocBlock_spec (input := (w.alloc 16).2) (hk'.later b2.later) h₀ rfl b4.inRange
  have hs := allocBlock_same n1 c (v.alloc 16).2
  rw [d1, hz, e1] at hs
  obtain ⟨hc, n2, hkk⟩ := hs
  simp only at hc n2 hkk
  subst hc hkk
  have hkl : hkey.len = 16 := by obtain ⟨⟨_, _, -, h, -⟩, -⟩ := d4; rw [h]; rfl
  have sv2 := (a2.trans d2.grow).sound sv
  have sw2 := (b2.trans e2.grow).sound sw
  obtain ⟨v3, sl, f1, f2, -, -, f5, f6⟩ := shareNew_spec (role := .leader) sv2 (v := hkey) (otp := otp) (by omega) d4.inRange (by omega)
  obtain ⟨w3, sf, g1, g2, -, -, g5, g6⟩ := shareNew_spec (role := .follower) sw2 (v := hkey) (otp := otp') (by omega) e4.inRange (by omega)
  have n3 : v3.nodes = w3.nodes := by rw [f5, g5, n2]
  have hgv := (a2.trans d2.grow).trans f2
  have hgw := (b2.trans e2.grow).trans g2
  obtain ⟨c4, v4, w4, jl, jf, k1, k2, k3, k4⟩ := allocJ0s_same h2 h2' records c2 v3 w3 n3 (f2.sound sv2) (g2.sound sw2) (d5.later f2.later)
    (e5.later g2.later) (d6.trans h₀) (d7.trans hiv) hil (hir.later hgv.later)
  obtain ⟨i1, i2⟩ := alloc_same k3 (16 * divCeil16 len) .priv .blind
  have hks := allocKeystream_same i1 c4 (16 * divCeil16 len)
  simp only [Gcm.alloc, allocPublic, a1, d1, f1, k1, liftErr, bind, Outcome.bind, if_true] at hl
  simp only [Gcm.alloc, allocPublic, b1, e1, g1, k2, liftErr, bind, Outcome.bind] at hf
  rw [if_neg (by decide)] at hf
  revert hks hl hf
  cases c4.allocKeystream ((v4.alloc (16 * divCeil16 len)).1.mark (v4.alloc (16 * divCeil16 len)).2 .priv) (16 * divCeil16 len) with
  | err e => intro _ hl _; cases hl
  | panic => intro _ hl _; cases hl
  | ok x =>
    cases c4.allocKeystream ((w4.alloc (16 * divCeil16 len)).1.mark (w4.alloc (16 * divCeil16 len)).2 .blind) (16 * divCeil16 len) with
    | err e => intro _ _ hf; cases hf
    | panic => intro _ _ hf; cases hf
    | ok y =>
      obtain ⟨x1, x2, x3⟩ := x
      obtain ⟨y1, y2, y3⟩ := y
      rintro ⟨rfl, hn, rfl⟩ hl hf
      simp only [Outcome.ok.injEq, Prod.mk.injEq] at hl hf
      obtain ⟨rfl, rfl, rfl⟩ := hl
      obtain ⟨rfl, rfl, rfl⟩ := hf
      exact ⟨⟨hn, i2, rfl, k4, rfl, by simp only [f6, g6, n2]⟩, rfl⟩

end Tlsn.Gcm
