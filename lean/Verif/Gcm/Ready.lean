import Verif.Gcm.Shares

namespace Tlsn.Gcm

/-! ## The state of AES-GCM -/

/-- What the ready state computes, whatever is assigned. -/
structure GcmOk (role : Role) (key iv : Ref) (vm : Vm) (g : Gcm) : Prop where
  keystream : ∀ b ∈ g.keystream, CtrOk vm.nodes key iv b
  j0s : ∀ j ∈ g.j0s, CtrOk vm.nodes key iv j.1 ∧ ShareOk vm role j.1.output j.2
  input : IsInput vm.nodes g.input

theorem GcmOk.later {a b : Vm} (h : Later a b) {role : Role} {key iv : Ref} {g : Gcm} (hx : GcmOk role key iv a g) :
    GcmOk role key iv b g :=
  ⟨fun x hx' => (hx.keystream x hx').later h, fun j hj => ⟨(hx.j0s j hj).1.later h, (hx.j0s j hj).2.later h⟩, hx.input.later h⟩

/-- The GHASH key: the block of zeros, encrypted. -/
structure HKeyOk (role : Role) (key : Ref) (vm : Vm) (g : Gcm) : Prop where
  call : ∃ ks z, Has vm.nodes .aesKs [key] ks ∧ Has vm.nodes .aesPost [ks, z] g.ghashKey ∧ IsInput vm.nodes z ∧
    Holds vm z (List.replicate 16 0)
  share : ShareOk vm role g.ghashKey g.ghashShare

theorem HKeyOk.later {a b : Vm} (h : Later a b) {role : Role} {key : Ref} {g : Gcm} (hx : HKeyOk role key a g) : HKeyOk role key b g := by
  obtain ⟨⟨ks, z, h1, h2, h3, h4⟩, h5⟩ := hx
  exact ⟨⟨ks, z, h1.later h, h2.later h, h3.later h, h4.later h⟩, h5.later h⟩

theorem HKeyOk.value {A : AesCircuits} {f : Nat → Option Byte} {role : Role} {vm : Vm} {key : Ref} {g : Gcm}
    (h : HKeyOk role key vm g) (hf : Inputs vm f) {K : Bytes} (hK : vm.value A f key = some K) :
    vm.value A f g.ghashKey = some (A.aes K (List.replicate 16 0)).toList := by
  obtain ⟨⟨ks, z, h1, h2, h3, h4⟩, -⟩ := h
  have hks : vm.value A f ks = some (A.ks K).toList := by
    rw [h1.value]
    simp [List.mapM_cons, hK, Circ.eval]
  rw [h2.value]
  simp [List.mapM_cons, hks, h4.value h3 hf, Circ.eval, AesCircuits.aes]

/-- The parts of the memory that are kept for later assignments. -/
def Gcm.blockRefs (g : Gcm) : List Ref := inputsOf (g.j0s.map (·.1)) ++ inputsOf g.keystream

/-- No part is assigned yet, and no two overlap. -/
structure Ready (role : Role) (vm : Vm) (g : Gcm) : Prop where
  sound : Sound vm
  free : ∀ r ∈ g.blockRefs, Free vm r
  apart : g.blockRefs.Pairwise Disj
  input : ∀ r ∈ g.blockRefs, Disj r g.input
  leader : role = .leader → Free vm g.input

theorem inputsOf_append (a b : List CtrBlock) : inputsOf (a ++ b) = inputsOf a ++ inputsOf b := by simp [inputsOf]

theorem mem_inputsOf {bs : List CtrBlock} {r : Ref} : r ∈ inputsOf bs ↔ ∃ b ∈ bs, r = b.nonce ∨ r = b.counter := by
  simp [inputsOf, List.mem_flatMap]

theorem inputs_inRange {vm : Vm} {key iv : Ref} {bs : List CtrBlock} (h : ∀ b ∈ bs, CtrOk vm.nodes key iv b) :
    ∀ r ∈ inputsOf bs, InRange vm r := by
  intro r hr
  obtain ⟨b, hb, rfl | rfl⟩ := mem_inputsOf.1 hr
  · exact (h b hb).nonce.inRange
  · exact (h b hb).counter.inRange

theorem GcmOk.refs {role : Role} {key iv : Ref} {vm : Vm} {g : Gcm} (h : GcmOk role key iv vm g) : ∀ r ∈ g.blockRefs, InRange vm r := by
  intro r hr
  simp only [Gcm.blockRefs, List.mem_append] at hr
  rcases hr with hr | hr
  · exact inputs_inRange (fun b hb => by
      obtain ⟨j, hj, rfl⟩ := List.mem_map.1 hb
      exact (h.j0s j hj).1) r hr
  · exact inputs_inRange h.keystream r hr

theorem Ready.grow {role : Role} {key iv : Ref} {a b : Vm} {g : Gcm} (h : Grow a b) (hr : Ready role a g) (hg : GcmOk role key iv a g) :
    Ready role b g :=
  ⟨h.sound hr.sound, fun r hm => h.free (hr.free r hm) (hg.refs r hm), hr.apart, hr.input,
    fun e => h.free (hr.leader e) hg.input.inRange⟩

theorem Disj.free {a b : Vm} {r x : Ref} {y : Bytes} (ha : a.assign x y = .ok b) (hd : Disj r x) (hf : Free a r) : Free b r := by
  obtain ⟨-, -, h3, -, -, h6⟩ := assign_spec ha
  refine ⟨?_, fun i hi => ?_⟩
  · have := hf.may
    simp only [Vm.mayAssign, h3] at this ⊢
    exact this
  · rw [h6 _ (by simp only [Disj] at hd; omega)]
    exact hf.free i hi

theorem Ready.assign {role : Role} {a b : Vm} {g : Gcm} (hr : Ready role a g) {x : Ref} {y : Bytes} (ha : a.assign x y = .ok b)
    (hd : ∀ r ∈ g.blockRefs, Disj r x) (hi : role = .leader → Disj g.input x) : Ready role b g :=
  ⟨hr.sound.assign ha, fun r hm => (hd r hm).free ha (hr.free r hm), hr.apart, hr.input,
    fun e => (hi e).free ha (hr.leader e)⟩

/-! ## Allocation -/

/-- New blocks of tags. -/
structure NewJ0s (role : Role) (vm vm' : Vm) (key iv : Ref) (js : List (CtrBlock × Share)) : Prop where
  grow : Grow vm vm'
  ok : ∀ j ∈ js, CtrOk vm'.nodes key iv j.1 ∧ ShareOk vm' role j.1.output j.2
  ordered : Ordered (sizeOf vm.nodes) (inputsOf (js.map (·.1))) (sizeOf vm'.nodes)
  free : ∀ r ∈ inputsOf (js.map (·.1)), Free vm' r

theorem NewBlocks.free {vm vm' : Vm} {key iv : Ref} {bs : List CtrBlock} (h : NewBlocks vm vm' key iv bs) (hs : Sound vm) :
    ∀ r ∈ inputsOf bs, Free vm' r := fun r hr =>
  ⟨mayAssign_of_mem (h.marks r hr) (by decide), fun i _ => by
    rw [h.quiet.assigned]
    exact hs.assigned _ (by have := (h.ordered.mem hr).1; omega)⟩

theorem allocJ0s_spec {role : Role} {otps : Nat → Bytes} (hot : ∀ n, (otps n).length = 16) {key k₀ iv : Ref} (n : Nat) (c : Aes128) (vm : Vm)
    (hs : Sound vm) (hk : KeyInUse c vm key) (h₀ : c.key = some k₀) (hiv : c.iv = some iv) (hil : iv.len = 4) (hir : InRange vm iv) :
    ∃ c' vm' js, allocJ0s role otps n c vm = .ok (c', vm', js) ∧ js.length = n ∧ NewJ0s role vm vm' key iv js ∧
      KeyInUse c' vm' key ∧ c'.key = c.key ∧ c'.iv = c.iv := by
  induction n generalizing c vm with
  | zero => exact ⟨c, vm, [], rfl, rfl, ⟨(Quiet.refl _).grow, (fun _ h => nomatch h), Nat.le_refl _, fun _ h => nomatch h⟩, hk, rfl, rfl⟩
  | succ n ih =>
    obtain ⟨c1, vm1, b, a1, a2, a3, a4, a5⟩ := allocCtrBlock_spec hk h₀ hiv hil hir
    have hs1 : Sound vm1 := hs.quiet a2.quiet
    have hb := a2.ok b (by simp)
    obtain ⟨vm2, s, b1, b2, b3, b4, b5, b6⟩ := shareNew_spec (role := role) hs1 (v := b.output) (otp := otps n) (by rw [hb.outLen]; omega) hb.inRange
      (by rw [hb.outLen, hot])
    obtain ⟨c3, vm3, js, d1, d2, d3, d4, d5, d6⟩ := ih c1 vm2 (b2.sound hs1) (a3.later b2.later) (a4.trans h₀) (a5.trans hiv)
      (hir.later (a2.quiet.later.trans b2.later))
    refine ⟨c3, vm3, (b, s) :: js, ?_, by simp [d2], ⟨(a2.quiet.grow.trans b2).trans d3.grow, ?_, ?_, ?_⟩, d4, d5.trans a4, d6.trans a5⟩
    · simp only [allocJ0s, a1, liftErr, b1, d1, bind, Outcome.bind]
    · intro j hj
      rcases List.mem_cons.1 hj with rfl | hj
      · exact ⟨(hb.later b2.later).later d3.grow.later, b3.later d3.grow.later⟩
      · exact d3.ok j hj
    · have h1 := a2.ordered.mono (Nat.le_refl _) b2.later.size
      have := h1.append d3.ordered
      simpa [inputsOf] using this
    · intro r hr
      have : inputsOf (((b, s) :: js).map (·.1)) = inputsOf [b] ++ inputsOf (js.map (·.1)) := by simp [inputsOf]
      rw [this, List.mem_append] at hr
      rcases hr with hr | hr
      · exact d3.grow.free (b2.free (a2.free hs r hr) (inputs_inRange a2.ok r hr)) ((inputs_inRange a2.ok r hr).later b2.later)
      · exact d3.free r hr

theorem divCeil16_mul (n : Nat) : divCeil16 (16 * divCeil16 n) = divCeil16 n := by simp only [divCeil16]; omega

/-- What `alloc` gives. -/
structure Alloced (role : Role) (vm vm' : Vm) (key iv : Ref) (g : Gcm) (records len : Nat) : Prop where
  grow : Grow vm vm'
  ok : GcmOk role key iv vm' g
  ready : Ready role vm' g
  hkey : HKeyOk role key vm' g
  inputLen : g.input.len = 16 * divCeil16 len
  blocks : g.keystream.length = divCeil16 len
  tags : g.j0s.length = records

theorem alloc_spec {role : Role} {otp : Bytes} {otps : Nat → Bytes} (ho : otp.length = 16) (hot : ∀ n, (otps n).length = 16) {key k₀ iv : Ref}
    (c : Aes128) (vm : Vm) (hs : Sound vm) (hk : KeyInUse c vm key) (h₀ : c.key = some k₀) (hiv : c.iv = some iv) (hil : iv.len = 4)
    (hir : InRange vm iv) (records len : Nat) :
    ∃ c' vm' g, Gcm.alloc role otp otps c vm records len = .ok (c', vm', g) ∧ Alloced role vm vm' key iv g records len ∧
      KeyInUse c' vm' key := by
  obtain ⟨vm1, a1, a2, a3, a4, a5⟩ := new_assign hs 16 (v := .pub) (by decide) (b := List.replicate 16 0) (by simp)
  obtain ⟨c2, vm2, ks, hkey, b1, b2, b3, b4, b5, b6, b7⟩ := allocBlock_spec (input := (vm.alloc 16).2) (hk.later a2.later) h₀ rfl a4.inRange
  have hl : hkey.len = 16 := by obtain ⟨⟨_, _, -, h, -⟩, -⟩ := b4; rw [h]; rfl
  have hs2 := (a2.trans b2.grow).sound hs
  obtain ⟨vm3, s, d1, d2, d3, -⟩ := shareNew_spec (role := role) hs2 (v := hkey) (otp := otp) (by omega) b4.inRange (by omega)
  have hg3 := (a2.trans b2.grow).trans d2
  have hs3 := d2.sound hs2
  obtain ⟨c4, vm4, js, e1, e2, e3, e4, e5, e6⟩ := allocJ0s_spec (role := role) hot records c2 vm3 hs3 (b5.later d2.later) (b6.trans h₀) (b7.trans hiv)
    hil (hir.later hg3.later)
  have hs4 := e3.grow.sound hs3
  have hi := alloc_isInput vm4 (16 * divCeil16 len)
  have hq := (alloc_quiet vm4 (16 * divCeil16 len)).trans (mark_quiet (vm4.alloc (16 * divCeil16 len)).1 (r := (vm4.alloc (16 * divCeil16 len)).2)
    hi.inRange (if role = .leader then .priv else .blind))
  have hs5 := hs4.quiet hq
  obtain ⟨c6, vm6, bs, f1, f2, f3, f4, f5, f6⟩ := allocKeystream_spec (e4.later hq.later) (e5.trans (b6.trans h₀)) (e6.trans (b7.trans hiv)) hil
    (hir.later ((hg3.trans e3.grow).later.trans hq.later)) (16 * divCeil16 len)
  have hg : Grow vm4 vm6 := (hq.trans f3.quiet).grow
  have hord : Ordered (sizeOf vm3.nodes) (inputsOf (js.map (·.1)) ++ ((vm4.alloc (16 * divCeil16 len)).2 :: inputsOf bs)) (sizeOf vm6.nodes) := by
    refine e3.ordered.append ⟨Nat.le_refl _, ?_⟩
    have := f3.ordered
    refine this.mono ?_ (Nat.le_refl _)
    simp [Vm.alloc, Vm.mark, sizeOf_append, Node.len]
  have hpw := hord.pairwise
  rw [List.pairwise_append, List.pairwise_cons] at hpw
  obtain ⟨p1, ⟨p2, p3⟩, p4⟩ := hpw
  refine ⟨c6, vm6, ⟨(vm4.alloc (16 * divCeil16 len)).2, bs, js, hkey, s⟩, ?_, ⟨(hg3.trans e3.grow).trans hg, ⟨f3.ok, ?_, ?_⟩,
    ⟨hs5.quiet f3.quiet, ?_, ?_, ?_, ?_⟩, ⟨⟨ks, (vm.alloc 16).2, ?_, ?_, ?_, ?_⟩, ?_⟩, rfl, by rw [f2, divCeil16_mul], e2⟩, f4⟩
  · simp only [Gcm.alloc, allocPublic, a1, b1, d1, e1, f1, liftErr, bind, Outcome.bind]
  · exact fun j hj => ⟨(e3.ok j hj).1.later hg.later, (e3.ok j hj).2.later hg.later⟩
  · exact hi.later ((mark_later _ _ _).trans f3.quiet.later)
  · intro r hr
    simp only [Gcm.blockRefs, List.mem_append] at hr
    rcases hr with hr | hr
    · exact hg.free (e3.free r hr) (Nat.le_trans (e3.ordered.mem hr).2 (Nat.le_refl _))
    · exact f3.free hs5 r hr
  · simp only [Gcm.blockRefs]
    rw [List.pairwise_append]
    exact ⟨p1, p3, fun x hx y hy => p4 x hx y (by simp [hy])⟩
  · intro r hr
    simp only [Gcm.blockRefs, List.mem_append] at hr
    rcases hr with hr | hr
    · exact p4 r hr _ (by simp)
    · exact (p2 r hr).symm
  · intro e
    refine f3.quiet.grow.free ?_ hi.inRange
    rw [if_pos e]
    exact new_free hs4 _ (by decide)
  · exact b3.later (d2.later.trans (e3.grow.later.trans hg.later))
  · exact b4.later (d2.later.trans (e3.grow.later.trans hg.later))
  · exact a4.later (b2.later.trans (d2.later.trans (e3.grow.later.trans hg.later)))
  · exact a3.later (b2.later.trans (d2.later.trans (e3.grow.later.trans hg.later)))
  · exact d3.later (e3.grow.later.trans hg.later)

end Tlsn.Gcm
