import Verif.Gcm.Values

namespace Tlsn.Gcm

/-! ## Growth of the machine -/

/-- New memory, which may be assigned; nothing else changes. -/
structure Grow (vm vm' : Vm) : Prop where
  later : Later vm vm'
  old : ∀ a, a < sizeOf vm.nodes → vm'.assigned a = vm.assigned a
  marks : ∀ m ∈ vm.marks, m ∈ vm'.marks
  sound : Sound vm → Sound vm'

theorem Quiet.grow {vm vm' : Vm} (h : Quiet vm vm') : Grow vm vm' :=
  ⟨h.later, fun a _ => by rw [h.assigned], h.marks, fun hs => hs.quiet h⟩

theorem Grow.trans {a b c : Vm} (h : Grow a b) (h' : Grow b c) : Grow a c :=
  ⟨h.later.trans h'.later, fun x hx => (h'.old x (Nat.lt_of_lt_of_le hx h.later.size)).trans (h.old x hx),
    fun m hm => h'.marks m (h.marks m hm), fun hs => h'.sound (h.sound hs)⟩

theorem Grow.free {a b : Vm} (h : Grow a b) {r : Ref} (hr : Free a r) (hi : InRange a r) : Free b r := by
  refine ⟨?_, fun i hi' => ?_⟩
  · have := hr.may
    simp only [Vm.mayAssign, List.any_eq_true] at this ⊢
    obtain ⟨m, h1, h2⟩ := this
    exact ⟨m, h.marks m h1, h2⟩
  · rw [h.old _ (by simp only [InRange] at hi; omega)]
    exact hr.free i hi'

/-- A new input can be assigned. -/
theorem new_free {vm : Vm} (hs : Sound vm) (n : Nat) {v : Vis} (hv : v ≠ .blind) : Free ((vm.alloc n).1.mark (vm.alloc n).2 v) (vm.alloc n).2 :=
  ⟨mayAssign_of_mem List.mem_cons_self hv, fun i _ => hs.assigned _ (by simp only [Vm.alloc]; omega)⟩

/-- Allocation, marking and assignment of an input. -/
theorem new_assign {vm : Vm} (hs : Sound vm) (n : Nat) {v : Vis} (hv : v ≠ .blind) {b : Bytes} (hb : b.length = n) :
    ∃ vm', ((vm.alloc n).1.mark (vm.alloc n).2 v).assign (vm.alloc n).2 b = .ok vm' ∧ Grow vm vm' ∧ Holds vm' (vm.alloc n).2 b ∧
      IsInput vm'.nodes (vm.alloc n).2 ∧ vm'.nodes = vm.nodes ++ [.input n] := by
  have hq := (alloc_quiet vm n).trans (mark_quiet (vm.alloc n).1 (r := (vm.alloc n).2) (alloc_isInput vm n).inRange v)
  obtain ⟨vm', h⟩ := assign_free (b := b) (new_free hs n hv) hb
  obtain ⟨h1, h2, h3, -, -, h6⟩ := assign_spec h
  refine ⟨vm', h, ⟨hq.later.trans h1, fun a ha => ?_, fun m hm => by rw [h3]; exact hq.marks m hm,
    fun hs => (hs.quiet hq).assign h⟩, assign_holds h, (alloc_isInput vm n).later (((mark_later _ _ _)).trans h1), h2⟩
  rw [h6 a (by simp only [Vm.alloc]; omega), hq.assigned]

/-! ## Shares -/

/-- The graph of a share: the value with two pads, the first of the leader and the second of the follower. -/
structure ShareOk (vm : Vm) (role : Role) (value : Ref) (s : Share) : Prop where
  call : ∃ p1 p2 x, Has vm.nodes (.xor value.len) [value, p1] x ∧ Has vm.nodes (.xor value.len) [x, p2] s.masked ∧
    IsInput vm.nodes p1 ∧ IsInput vm.nodes p2 ∧ (match role with | .leader => Holds vm p1 s.otp | .follower => Holds vm p2 s.otp)
  otpLen : s.otp.length = value.len

theorem ShareOk.later {a b : Vm} (h : Later a b) {role : Role} {v : Ref} {s : Share} (hx : ShareOk a role v s) : ShareOk b role v s := by
  obtain ⟨⟨p1, p2, x, h1, h2, h3, h4, h5⟩, h6⟩ := hx
  refine ⟨⟨p1, p2, x, h1.later h, h2.later h, h3.later h, h4.later h, ?_⟩, h6⟩
  cases role with
  | leader => exact Holds.later h h5
  | follower => exact Holds.later h h5

theorem callXor_spec {ε : Type} {vm : Vm} {a b : Ref} {n : Nat} (ha : a.len = n) (hb : b.len = n) (hn : 0 < n) (ra : InRange vm a) (rb : InRange vm b) :
    ∃ vm' o, callOk (ε := ε) vm (.xor n) [a, b] = .ok (vm', o) ∧ Quiet vm vm' ∧ Has vm'.nodes (.xor n) [a, b] o ∧ o.len = n ∧
      vm'.nodes = vm.nodes ++ [.call (.xor n) [a, b]] ∧ o.addr = sizeOf vm.nodes := by
  have hc : vm.call (.xor n) [a, b] = _ := call_ok (by simp [ha, hb, Circ.inLen]; omega)
  exact ⟨_, _, by simp only [callOk, hc], call_quiet hc, call_has hc (by
    simp only [List.mem_cons, List.not_mem_nil, or_false]
    rintro r (rfl | rfl)
    · exact ra
    · exact rb) hn, rfl, rfl, rfl⟩

theorem maskPrivate_spec {vm : Vm} (hs : Sound vm) {v : Ref} {otp : Bytes} (hv : 0 < v.len) (hr : InRange vm v) (ho : otp.length = v.len) :
    ∃ vm' o p, maskPrivate vm v otp = .ok (vm', o) ∧ Grow vm vm' ∧ Has vm'.nodes (.xor v.len) [v, p] o ∧ IsInput vm'.nodes p ∧
      Holds vm' p otp ∧ o.len = v.len ∧ vm'.nodes = vm.nodes ++ [.input v.len, .call (.xor v.len) [v, ⟨sizeOf vm.nodes, v.len⟩]] ∧
      o.addr = sizeOf vm.nodes + v.len := by
  obtain ⟨vm1, h1, h2, h3, h4, h5⟩ := new_assign hs v.len (v := .priv) (by decide) ho
  obtain ⟨vm2, o, g1, g2, g3, g4, g5, g6⟩ := callXor_spec (ε := CipherError) (a := v) (b := (vm.alloc v.len).2) rfl rfl hv (hr.later h2.later) h4.inRange
  refine ⟨vm2, o, _, by simp only [maskPrivate, h1]; exact g1, h2.trans g2.grow, g3, h4.later g2.later, h3.later g2.later, g4, ?_, ?_⟩
  · rw [g5, h5]; simp [Vm.alloc]
  · rw [g6, h5, sizeOf_append]; simp [Node.len]

theorem maskBlind_spec {vm : Vm} {v : Ref} (hv : 0 < v.len) (hr : InRange vm v) :
    ∃ vm' o p, maskBlind vm v = .ok (vm', o) ∧ Grow vm vm' ∧ Has vm'.nodes (.xor v.len) [v, p] o ∧ IsInput vm'.nodes p ∧
      o.len = v.len ∧ vm'.nodes = vm.nodes ++ [.input v.len, .call (.xor v.len) [v, ⟨sizeOf vm.nodes, v.len⟩]] ∧
      o.addr = sizeOf vm.nodes + v.len := by
  have hi := alloc_isInput vm v.len
  have hq := (alloc_quiet vm v.len).trans (mark_quiet (vm.alloc v.len).1 (r := (vm.alloc v.len).2) hi.inRange .blind)
  obtain ⟨vm2, o, g1, g2, g3, g4, g5, g6⟩ := callXor_spec (ε := CipherError) (vm := (vm.alloc v.len).1.mark (vm.alloc v.len).2 .blind) (a := v)
    (b := (vm.alloc v.len).2) rfl rfl hv (hr.later hq.later) hi.inRange
  refine ⟨vm2, o, _, g1, (hq.trans g2).grow, g3, IsInput.later g2.later (r := (vm.alloc v.len).2) hi, g4, ?_, ?_⟩
  · rw [g5]; simp [Vm.alloc, Vm.mark]
  · rw [g6]; simp [Vm.alloc, Vm.mark, sizeOf_append, Node.len]

/-- The pieces of memory that a share adds. -/
def shareNodes (size : Nat) (v : Ref) : List Node :=
  [.input v.len, .call (.xor v.len) [v, ⟨size, v.len⟩], .input v.len,
    .call (.xor v.len) [⟨size + v.len, v.len⟩, ⟨size + v.len + v.len, v.len⟩]]

theorem shareNew_spec {role : Role} {vm : Vm} (hs : Sound vm) {v : Ref} {otp : Bytes} (hv : 0 < v.len) (hr : InRange vm v) (ho : otp.length = v.len) :
    ∃ vm' s, shareNew role vm v otp = .ok (vm', s) ∧ Grow vm vm' ∧ ShareOk vm' role v s ∧ s.otp = otp ∧
      vm'.nodes = vm.nodes ++ shareNodes (sizeOf vm.nodes) v ∧ s.masked = ⟨sizeOf vm.nodes + v.len + v.len + v.len, v.len⟩ := by
  cases role with
  | leader =>
    obtain ⟨vm1, x, p1, a1, a2, a3, a4, a5, a6, a7, a8⟩ := maskPrivate_spec hs hv hr ho
    obtain ⟨vm2, o, p2, b1, b2, b3, b4, b5, b6, b7⟩ := maskBlind_spec (vm := vm1) (v := x) (by omega) a3.inRange
    have hx : x = ⟨sizeOf vm.nodes + v.len, v.len⟩ := by cases x; cases a6; cases a8; rfl
    have hz : sizeOf vm1.nodes = sizeOf vm.nodes + v.len + v.len := by rw [a7, sizeOf_append]; simp [sizeOf, Node.len, Circ.outLen]; omega
    rw [a6] at b3 b5 b6 b7
    refine ⟨vm2, ⟨otp, o⟩, by simp only [shareNew, a1, b1, bind, Outcome.bind], a2.trans b2,
      ⟨⟨p1, p2, x, a3.later b2.later, b3, a4.later b2.later, b4, a5.later b2.later⟩, ho⟩, rfl, ?_, ?_⟩
    · rw [b6, hz, a7, hx]; simp [shareNodes]
    · cases o; simp only at b5 b7; rw [b5, b7, hz]
  | follower =>
    obtain ⟨vm1, x, p1, a1, a2, a3, a4, a6, a7, a8⟩ := maskBlind_spec (vm := vm) hv hr
    obtain ⟨vm2, o, p2, b1, b2, b3, b4, b4', b5, b6, b7⟩ := maskPrivate_spec (a2.sound hs) (v := x) (otp := otp) (by omega) a3.inRange (by omega)
    have hx : x = ⟨sizeOf vm.nodes + v.len, v.len⟩ := by cases x; cases a6; cases a8; rfl
    have hz : sizeOf vm1.nodes = sizeOf vm.nodes + v.len + v.len := by rw [a7, sizeOf_append]; simp [sizeOf, Node.len, Circ.outLen]; omega
    rw [a6] at b3 b5 b6 b7
    refine ⟨vm2, ⟨otp, o⟩, by simp only [shareNew, a1, b1, bind, Outcome.bind], a2.trans b2,
      ⟨⟨p1, p2, x, a3.later b2.later, b3, a4.later b2.later, b4, b4'⟩, ho⟩, rfl, ?_, ?_⟩
    · rw [b6, hz, a7, hx]; simp [shareNodes]
    · cases o; simp only at b5 b7; rw [b5, b7, hz]

/-! ## The shares of both parties -/

theorem split_inj {pre pre' post post' : List Node} {n n' : Node} (h : pre ++ n :: post = pre' ++ n' :: post')
    (hs : sizeOf pre = sizeOf pre') (hn : 0 < n.len) (hn' : 0 < n'.len) : n = n' := by
  induction pre generalizing pre' with
  | nil => cases pre' with
    | nil => simp only [List.nil_append, List.cons.injEq] at h; exact h.1
    | cons x pre' =>
      simp only [List.nil_append, List.cons_append, List.cons.injEq] at h
      obtain ⟨rfl, -⟩ := h
      simp [sizeOf] at hs
      omega
  | cons x pre ih => cases pre' with
    | nil =>
      simp only [List.nil_append, List.cons_append, List.cons.injEq] at h
      obtain ⟨rfl, -⟩ := h
      simp [sizeOf] at hs
      omega
    | cons y pre' =>
      simp only [List.cons_append, List.cons.injEq] at h
      obtain ⟨rfl, h⟩ := h
      exact ih h (by simpa [sizeOf] using hs)

theorem Has.inj {ns : List Node} {c c' : Circ} {args args' : List Ref} {o : Ref} (h : Has ns c args o) (h' : Has ns c' args' o) :
    c = c' ∧ args = args' := by
  obtain ⟨⟨pre, post, rfl, h2, -⟩, -, h4⟩ := h
  obtain ⟨⟨pre', post', e, h2', -⟩, -, h4'⟩ := h'
  have := split_inj e (by rw [h2] at h2'; exact (Ref.mk.injEq _ _ _ _ ▸ h2').1) h4 h4'
  simp only [Node.call.injEq] at this
  exact this

theorem xorBytes_assoc (a b c : Bytes) : xorBytes (xorBytes a b) c = xorBytes a (xorBytes b c) := by
  induction a generalizing b c with
  | nil => simp [xorBytes]
  | cons x a ih => cases b with
    | nil => simp [xorBytes]
    | cons y b => cases c with
      | nil => simp [xorBytes]
      | cons z c =>
        have := ih b c
        simp only [xorBytes] at this ⊢
        simp [this, UInt8.xor_assoc]

theorem xorBytes_cancel (a b : Bytes) (h : a.length ≤ b.length) : xorBytes (xorBytes a b) b = a := by
  induction a generalizing b with
  | nil => simp [xorBytes]
  | cons x a ih => cases b with
    | nil => simp at h
    | cons y b =>
      have := ih b (by simpa using h)
      simp only [xorBytes] at this ⊢
      simp [this, UInt8.xor_assoc]

theorem xor_value {A : AesCircuits} {f : Nat → Option Byte} {vm : Vm} {n : Nat} {a b o : Ref} (h : Has vm.nodes (.xor n) [a, b] o)
    {x y : Bytes} (hx : vm.value A f a = some x) (hy : vm.value A f b = some y) (hl : x.length = n) :
    vm.value A f o = some (xorBytes x y) := by
  rw [h.value]
  simp [List.mapM_cons, hx, hy, Circ.eval, ← hl]

/-- The value that is decoded, and the shares of both parties. -/
theorem shares_value {A : AesCircuits} {f : Nat → Option Byte} {vl vf : Vm} {v : Ref} {sl sf : Share} (hn : vf.nodes = vl.nodes)
    (hl : ShareOk vl .leader v sl) (hf : ShareOk vf .follower v sf) (hm : sf.masked = sl.masked) (il : Inputs vl f) (iF : Inputs vf f)
    {V : Bytes} (hV : vl.value A f v = some V) :
    ∃ d, vl.value A f sl.masked = some d ∧ vf.value A f sf.masked = some d ∧ d = xorBytes (xorBytes V sl.otp) sf.otp ∧
      sl.resolve .leader d = sl.otp ∧ sf.resolve .follower d = xorBytes V sl.otp ∧
      xorBytes (sl.resolve .leader d) (sf.resolve .follower d) = V := by
  obtain ⟨⟨p1, p2, x, a1, a2, a3, -, a5⟩, a6⟩ := hl
  obtain ⟨⟨q1, q2, y, b1, b2, -, b4, b5⟩, b6⟩ := hf
  rw [hn, hm] at b2
  obtain ⟨-, e⟩ := a2.inj b2
  simp only [List.cons.injEq, and_true] at e
  obtain ⟨rfl, rfl⟩ := e
  have hvl : V.length = v.len := readRef_length hV
  have h1 := a5.value (A := A) a3 il
  have h2 := b5.value (A := A) b4 iF
  have h2' : vl.value A f p2 = some sf.otp := by
    rw [← h2]; simp only [Vm.value, hn]
  have e1 := xor_value a1 hV h1 hvl
  have e2 := xor_value a2 e1 h2' (by rw [xorBytes_length, hvl, a6]; omega)
  have hd : xorBytes (xorBytes (xorBytes V sl.otp) sf.otp) sf.otp = xorBytes V sl.otp :=
    xorBytes_cancel _ _ (by rw [xorBytes_length]; omega)
  refine ⟨_, e2, by rw [hm, ← e2]; simp only [Vm.value, hn], rfl, rfl, hd, ?_⟩
  simp only [Share.resolve]
  rw [hd, xorBytes_comm, xorBytes_cancel _ _ (by omega)]

end Tlsn.Gcm
