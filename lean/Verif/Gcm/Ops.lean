import Verif.Gcm.Lemmas

namespace Tlsn.Gcm

/-! ## Steps of the machine -/

theorem Later.refl (vm : Vm) : Later vm vm := ⟨⟨[], by simp⟩, fun _ _ h => h⟩

theorem Later.trans {a b c : Vm} (h : Later a b) (h' : Later b c) : Later a c := by
  obtain ⟨⟨x, hx⟩, h1⟩ := h
  obtain ⟨⟨y, hy⟩, h2⟩ := h'
  exact ⟨⟨x ++ y, by rw [hy, hx, List.append_assoc]⟩, fun a b h => h2 a b (h1 a b h)⟩

theorem Later.size {a b : Vm} (h : Later a b) : sizeOf a.nodes ≤ sizeOf b.nodes := by
  obtain ⟨⟨x, hx⟩, -⟩ := h
  rw [hx, sizeOf_append]; omega

theorem Has.later {a b : Vm} (h : Later a b) {c : Circ} {args : List Ref} {out : Ref} (hh : Has a.nodes c args out) :
    Has b.nodes c args out := by
  obtain ⟨⟨x, hx⟩, -⟩ := h
  rw [hx]; exact hh.append x

theorem IsInput.later {a b : Vm} (h : Later a b) {r : Ref} (hh : IsInput a.nodes r) : IsInput b.nodes r := by
  obtain ⟨⟨x, hx⟩, -⟩ := h
  rw [hx]; exact hh.append x

theorem Inputs.of_later {a b : Vm} (h : Later a b) {f : Nat → Option Byte} (hf : Inputs b f) : Inputs a f :=
  fun x y hx => hf x y (h.assigned x y hx)

/-- The part is in the memory. -/
def InRange (vm : Vm) (r : Ref) : Prop := r.addr + r.len ≤ sizeOf vm.nodes

theorem InRange.later {a b : Vm} (h : Later a b) {r : Ref} (hr : InRange a r) : InRange b r := Nat.le_trans hr h.size

/-- The party may assign the part, and no byte of it is assigned. -/
structure Free (vm : Vm) (r : Ref) : Prop where
  may : vm.mayAssign r = true
  free : ∀ i < r.len, vm.assigned (r.addr + i) = none

theorem alloc_later (vm : Vm) (n : Nat) : Later vm (vm.alloc n).1 := ⟨⟨[.input n], rfl⟩, fun _ _ h => h⟩

theorem mark_later (vm : Vm) (r : Ref) (v : Vis) : Later vm (vm.mark r v) := ⟨⟨[], by simp [Vm.mark]⟩, fun _ _ h => h⟩

theorem alloc_isInput (vm : Vm) (n : Nat) : IsInput (vm.alloc n).1.nodes (vm.alloc n).2 :=
  ⟨vm.nodes, n, [], rfl, Nat.le_refl _, Nat.le_refl _⟩

theorem alloc_size (vm : Vm) (n : Nat) : sizeOf (vm.alloc n).1.nodes = sizeOf vm.nodes + n := by
  simp [Vm.alloc, sizeOf_append, Node.len]

theorem call_ok {vm : Vm} {c : Circ} {args : List Ref} (hl : (args.map (·.len)).sum = c.inLen) :
    vm.call c args = .ok ({ vm with nodes := vm.nodes ++ [.call c args] }, ⟨sizeOf vm.nodes, c.outLen⟩) := if_pos hl

theorem call_later {vm vm' : Vm} {c : Circ} {args : List Ref} {out : Ref} (h : vm.call c args = .ok (vm', out)) :
    Later vm vm' ∧ vm'.marks = vm.marks ∧ vm'.assigned = vm.assigned ∧ out = ⟨sizeOf vm.nodes, c.outLen⟩ ∧
      vm'.nodes = vm.nodes ++ [.call c args] := by
  unfold Vm.call at h
  split at h
  · cases h
    exact ⟨⟨⟨_, rfl⟩, fun _ _ h => h⟩, rfl, rfl, rfl, rfl⟩
  · cases h

theorem call_has {vm vm' : Vm} {c : Circ} {args : List Ref} {out : Ref} (h : vm.call c args = .ok (vm', out))
    (hr : ∀ r ∈ args, InRange vm r) (hp : 0 < c.outLen) : Has vm'.nodes c args out := by
  obtain ⟨-, -, -, h4, h5⟩ := call_later h
  refine ⟨⟨vm.nodes, [], h5, h4, hr⟩, ?_, hp⟩
  unfold Vm.call at h
  split at h
  · rename_i hl; exact hl
  · cases h

theorem assign_iff {vm vm' : Vm} {r : Ref} {b : Bytes} : vm.assign r b = .ok vm' ↔
    vm.mayAssign r = true ∧ b.length = r.len ∧ (∀ i < r.len, vm.assigned (r.addr + i) = none) ∧
    vm' = { vm with assigned := fun a => if r.addr ≤ a ∧ a < r.addr + r.len then b[a - r.addr]? else vm.assigned a } := by
  unfold Vm.assign
  split
  · rename_i h
    constructor
    · intro e; cases e; exact ⟨h.1, h.2.1, h.2.2, rfl⟩
    · rintro ⟨-, -, -, rfl⟩; rfl
  · rename_i h
    constructor
    · intro e; cases e
    · rintro ⟨h1, h2, h3, -⟩; exact absurd ⟨h1, h2, h3⟩ h

theorem assign_spec {vm vm' : Vm} {r : Ref} {b : Bytes} (h : vm.assign r b = .ok vm') :
    Later vm vm' ∧ vm'.nodes = vm.nodes ∧ vm'.marks = vm.marks ∧ b.length = r.len ∧
      (∀ i < r.len, vm'.assigned (r.addr + i) = b[i]?) ∧
      ∀ a, ¬ (r.addr ≤ a ∧ a < r.addr + r.len) → vm'.assigned a = vm.assigned a := by
  obtain ⟨h1, h2, h3, rfl⟩ := assign_iff.1 h
  refine ⟨⟨⟨[], by simp⟩, fun a x hx => ?_⟩, rfl, rfl, h2, fun i hi => ?_, fun a ha => if_neg ha⟩
  · simp only
    split
    · rename_i hin
      have := h3 (a - r.addr) (by omega)
      rw [Nat.add_sub_cancel' hin.1, hx] at this
      cases this
    · exact hx
  · simp only
    rw [if_pos (by omega), Nat.add_sub_cancel_left]

theorem assign_free {vm : Vm} {r : Ref} {b : Bytes} (h : Free vm r) (hb : b.length = r.len) : ∃ vm', vm.assign r b = .ok vm' :=
  ⟨_, assign_iff.2 ⟨h.may, hb, h.free, rfl⟩⟩

/-! ## AES -/

/-- A counter block of AES under the key and with the IV in these parts of the memory. -/
structure CtrOk (ns : List Node) (key iv : Ref) (b : CtrBlock) : Prop where
  call : ∃ ks, Has ns .aesKs [key] ks ∧ Has ns .aesPost [ks, iv, b.nonce, b.counter] b.output
  nonce : IsInput ns b.nonce
  counter : IsInput ns b.counter
  nonceLen : b.nonce.len = 8
  counterLen : b.counter.len = 4

theorem CtrOk.later {a b : Vm} (h : Later a b) {key iv : Ref} {x : CtrBlock} (hx : CtrOk a.nodes key iv x) :
    CtrOk b.nodes key iv x := by
  obtain ⟨⟨ks, h1, h2⟩, h3, h4, h5, h6⟩ := hx
  exact ⟨⟨ks, h1.later h, h2.later h⟩, h3.later h, h4.later h, h5, h6⟩

theorem CtrOk.outLen {ns : List Node} {key iv : Ref} {x : CtrBlock} (hx : CtrOk ns key iv x) : x.output.len = 16 := by
  obtain ⟨⟨ks, -, h2⟩, -⟩ := hx
  obtain ⟨⟨pre, post, -, h, -⟩, -⟩ := h2
  rw [h]; rfl

theorem CtrOk.inRange {vm : Vm} {key iv : Ref} {x : CtrBlock} (hx : CtrOk vm.nodes key iv x) : InRange vm x.output := by
  obtain ⟨⟨ks, -, h2⟩, -⟩ := hx
  exact h2.inRange

/-- What the block holds. -/
theorem CtrOk.value {A : AesCircuits} {f : Nat → Option Byte} {vm : Vm} {key iv : Ref} {x : CtrBlock}
    (hx : CtrOk vm.nodes key iv x) {K IV N C : Bytes} (hK : vm.value A f key = some K) (hIV : vm.value A f iv = some IV)
    (hN : vm.value A f x.nonce = some N) (hC : vm.value A f x.counter = some C) :
    vm.value A f x.output = some (A.aes K (IV ++ N ++ C)).toList := by
  obtain ⟨⟨ks, h1, h2⟩, -⟩ := hx
  have hks : vm.value A f ks = some (A.ks K).toList := by
    rw [h1.value]
    simp [List.mapM_cons, hK, Circ.eval]
  rw [h2.value]
  simp [List.mapM_cons, hks, hIV, hN, hC, Circ.eval, AesCircuits.aes, List.append_assoc]

/-- The key that the cipher uses: the one of the key schedule if there is one, else the one that was set. -/
structure KeyInUse (c : Aes128) (vm : Vm) (key : Ref) : Prop where
  set : ∃ k, c.key = some k
  schedule : ∀ ks, c.keySchedule = some ks → Has vm.nodes .aesKs [key] ks
  none : c.keySchedule = none → c.key = some key
  len : key.len = 16
  range : InRange vm key

theorem KeyInUse.later {a b : Vm} (h : Later a b) {c : Aes128} {key : Ref} (hk : KeyInUse c a key) : KeyInUse c b key :=
  ⟨hk.set, fun ks e => (hk.schedule ks e).later h, hk.none, hk.len, hk.range.later h⟩

/-- Nothing is assigned or forbidden. -/
structure Quiet (vm vm' : Vm) : Prop where
  later : Later vm vm'
  assigned : vm'.assigned = vm.assigned
  marks : ∀ m ∈ vm.marks, m ∈ vm'.marks
  newMarks : ∀ m ∈ vm'.marks, m ∈ vm.marks ∨ InRange vm' m.1

theorem Quiet.refl (vm : Vm) : Quiet vm vm := ⟨.refl _, rfl, fun _ h => h, fun _ h => .inl h⟩

theorem Quiet.trans {a b c : Vm} (h : Quiet a b) (h' : Quiet b c) : Quiet a c :=
  ⟨h.later.trans h'.later, h'.assigned.trans h.assigned, fun m hm => h'.marks m (h.marks m hm), fun m hm => by
    rcases h'.newMarks m hm with hm | hm
    · exact (h.newMarks m hm).imp_right fun x => x.later h'.later
    · exact .inr hm⟩

theorem call_quiet {vm vm' : Vm} {c : Circ} {args : List Ref} {out : Ref} (h : vm.call c args = .ok (vm', out)) : Quiet vm vm' := by
  obtain ⟨h1, h2, h3, -, -⟩ := call_later h
  exact ⟨h1, h3, fun m hm => by rw [h2]; exact hm, fun m hm => .inl (by rw [← h2]; exact hm)⟩

theorem alloc_quiet (vm : Vm) (n : Nat) : Quiet vm (vm.alloc n).1 := ⟨alloc_later vm n, rfl, fun _ h => h, fun _ h => .inl h⟩

theorem mark_quiet (vm : Vm) {r : Ref} (hr : InRange vm r) (v : Vis) : Quiet vm (vm.mark r v) :=
  ⟨mark_later vm r v, rfl, fun _ h => List.mem_cons_of_mem _ h, fun m hm => by
    rcases List.mem_cons.1 hm with rfl | hm
    · exact .inr hr
    · exact .inl hm⟩

theorem mayAssign_of_mem {vm : Vm} {r : Ref} {v : Vis} (h : (r, v) ∈ vm.marks) (hv : v ≠ .blind) : vm.mayAssign r = true := by
  simp only [Vm.mayAssign, List.any_eq_true, decide_eq_true_eq]
  exact ⟨_, h, Nat.le_refl _, Nat.le_refl _, hv⟩

theorem Quiet.mayAssign {a b : Vm} (h : Quiet a b) {r : Ref} (hr : a.mayAssign r = true) : b.mayAssign r = true := by
  simp only [Vm.mayAssign, List.any_eq_true] at hr ⊢
  obtain ⟨m, h1, h2⟩ := hr
  exact ⟨m, h.marks m h1, h2⟩

theorem Quiet.free {a b : Vm} (h : Quiet a b) {r : Ref} (hr : Free a r) : Free b r :=
  ⟨h.mayAssign hr.may, by rw [h.assigned]; exact hr.free⟩

theorem schedule_spec {c : Aes128} {vm : Vm} {key k₀ : Ref} (hk : KeyInUse c vm key) (h₀ : c.key = some k₀) :
    ∃ c' vm' ks, c.schedule vm k₀ = .ok (c', vm', ks) ∧ Quiet vm vm' ∧ Has vm'.nodes .aesKs [key] ks ∧
      KeyInUse c' vm' key ∧ c'.key = c.key ∧ c'.iv = c.iv := by
  unfold Aes128.schedule
  cases hs : c.keySchedule with
  | some ks => exact ⟨c, vm, ks, rfl, .refl _, hk.schedule ks hs, hk, rfl, rfl⟩
  | none =>
    have : k₀ = key := by
      have := hk.none hs
      rw [h₀] at this
      exact Option.some.inj this
    subst this
    have hc : vm.call .aesKs [k₀] = _ := call_ok (by simp [hk.len, Circ.inLen])
    have hh := call_has hc (by simpa using hk.range) (by decide)
    refine ⟨{ c with keySchedule := some ⟨sizeOf vm.nodes, 176⟩ }, _, _, by simp only [callOk, hc]; rfl, call_quiet hc, hh, ⟨⟨_, h₀⟩, ?_, (fun h => nomatch h), hk.len,
      hk.range.later (call_quiet hc).later⟩, rfl, rfl⟩
    intro ks e
    cases e
    exact hh

theorem blockCall_spec {c : Aes128} {vm : Vm} {key k₀ iv n k : Ref} (hk : KeyInUse c vm key) (h₀ : c.key = some k₀)
    (hn : IsInput vm.nodes n) (hk' : IsInput vm.nodes k) (hnl : n.len = 8) (hkl : k.len = 4) (hil : iv.len = 4)
    (hir : InRange vm iv) :
    ∃ c' vm' o, c.blockCall vm k₀ iv n k = .ok (c', vm', ⟨n, k, o⟩) ∧ Quiet vm vm' ∧ CtrOk vm'.nodes key iv ⟨n, k, o⟩ ∧
      KeyInUse c' vm' key ∧ c'.key = c.key ∧ c'.iv = c.iv := by
  obtain ⟨c', vm', ks, h1, h2, h3, h4, h5, h6⟩ := schedule_spec hk h₀
  have hksl : ks.len = 176 := by
    obtain ⟨⟨_, _, -, h, -⟩, -⟩ := h3; rw [h]; rfl
  have hc : vm'.call .aesPost [ks, iv, n, k] = _ := call_ok (by simp [hksl, hil, hnl, hkl, Circ.inLen])
  have hq := call_quiet hc
  have hh := call_has hc (by
    simp only [List.mem_cons, List.not_mem_nil, or_false]
    rintro r (rfl | rfl | rfl | rfl)
    · exact h3.inRange
    · exact hir.later h2.later
    · exact (hn.later h2.later).inRange
    · exact (hk'.later h2.later).inRange) (by decide)
  refine ⟨c', _, _, by simp only [Aes128.blockCall, h1, bind, Outcome.bind, callOk, hc], h2.trans hq,
    ⟨⟨ks, h3.later hq.later, hh⟩, (hn.later h2.later).later hq.later, (hk'.later h2.later).later hq.later, hnl, hkl⟩,
    h4.later hq.later, h5, h6⟩

end Tlsn.Gcm
