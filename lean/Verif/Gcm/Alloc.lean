import Verif.Gcm.Ops

namespace Tlsn.Gcm

/-- Parts of the memory from `lo` to `hi`, one behind the other. -/
def Ordered : Nat → List Ref → Nat → Prop
  | lo, [], hi => lo ≤ hi
  | lo, r :: rs, hi => lo ≤ r.addr ∧ Ordered (r.addr + r.len) rs hi

theorem Ordered.le {lo hi : Nat} {l : List Ref} (h : Ordered lo l hi) : lo ≤ hi := by
  induction l generalizing lo with
  | nil => exact h
  | cons r l ih => have := ih h.2; have := h.1; omega

theorem Ordered.mono {lo lo' hi hi' : Nat} {l : List Ref} (h : Ordered lo l hi) (h1 : lo' ≤ lo) (h2 : hi ≤ hi') : Ordered lo' l hi' := by
  induction l generalizing lo lo' with
  | nil => simp only [Ordered] at h ⊢; omega
  | cons r l ih => exact ⟨Nat.le_trans h1 h.1, ih h.2 (Nat.le_refl _)⟩

theorem Ordered.append {lo mid hi : Nat} {l m : List Ref} (h : Ordered lo l mid) (h' : Ordered mid m hi) : Ordered lo (l ++ m) hi := by
  induction l generalizing lo with
  | nil => exact h'.mono h (Nat.le_refl _)
  | cons r l ih => exact ⟨h.1, ih h.2⟩

theorem Ordered.mem {lo hi : Nat} {l : List Ref} (h : Ordered lo l hi) {r : Ref} (hr : r ∈ l) : lo ≤ r.addr ∧ r.addr + r.len ≤ hi := by
  induction l generalizing lo with
  | nil => cases hr
  | cons x l ih =>
    rcases List.mem_cons.1 hr with rfl | hr
    · exact ⟨h.1, h.2.le⟩
    · have := ih h.2 hr
      have := h.1
      omega

/-- Parts of the memory without a common byte. -/
def Disj (a b : Ref) : Prop := a.addr + a.len ≤ b.addr ∨ b.addr + b.len ≤ a.addr

instance (a b : Ref) : Decidable (Disj a b) := inferInstanceAs (Decidable (_ ∨ _))

theorem Disj.symm {a b : Ref} (h : Disj a b) : Disj b a := h.elim .inr .inl

theorem Ordered.pairwise {lo hi : Nat} {l : List Ref} (h : Ordered lo l hi) : l.Pairwise Disj := by
  induction l generalizing lo with
  | nil => exact .nil
  | cons r l ih => exact .cons (fun x hx => .inl (h.2.mem hx).1) (ih h.2)

/-- Nothing is assigned or marked outside of the memory. -/
structure Sound (vm : Vm) : Prop where
  assigned : ∀ a, sizeOf vm.nodes ≤ a → vm.assigned a = none
  marks : ∀ m ∈ vm.marks, InRange vm m.1

theorem Sound.empty : Sound {} := ⟨fun _ _ => rfl, fun _ h => nomatch h⟩

theorem Sound.quiet {vm vm' : Vm} (h : Sound vm) (hq : Quiet vm vm') : Sound vm' :=
  ⟨fun a ha => by rw [hq.assigned]; exact h.assigned a (Nat.le_trans hq.later.size ha), fun m hm =>
    (hq.newMarks m hm).elim (fun hm => (h.marks m hm).later hq.later) id⟩

theorem Sound.assign {vm vm' : Vm} (h : Sound vm) {r : Ref} {b : Bytes} (ha : vm.assign r b = .ok vm') : Sound vm' := by
  obtain ⟨h1, h2, h3, h4⟩ := assign_iff.1 ha
  subst h4
  refine ⟨fun a ha => ?_, h.marks⟩
  simp only [Vm.mayAssign, List.any_eq_true, decide_eq_true_eq] at h1
  obtain ⟨m, hm, hm1, hm2, -⟩ := h1
  have := h.marks m hm
  simp only [InRange] at this
  simp only at ha ⊢
  rw [if_neg (by omega)]
  exact h.assigned a ha

theorem allocInputs_spec (n : Nat) (vm : Vm) :
    Quiet vm (allocInputs n vm).1 ∧ (allocInputs n vm).2.length = n ∧
    Ordered (sizeOf vm.nodes) ((allocInputs n vm).2.flatMap fun i => [i.1, i.2]) (sizeOf (allocInputs n vm).1.nodes) ∧
    ∀ i ∈ (allocInputs n vm).2, IsInput (allocInputs n vm).1.nodes i.1 ∧ IsInput (allocInputs n vm).1.nodes i.2 ∧
      i.1.len = 8 ∧ i.2.len = 4 ∧ (i.1, .pub) ∈ (allocInputs n vm).1.marks ∧ (i.2, .pub) ∈ (allocInputs n vm).1.marks := by
  induction n generalizing vm with
  | zero => exact ⟨.refl _, rfl, Nat.le_refl _, fun _ h => nomatch h⟩
  | succ n ih =>
    have hq1 := alloc_quiet vm 8
    have hq2 := alloc_quiet (vm.alloc 8).1 4
    have hi1 := (alloc_isInput vm 8).later hq2.later
    have hi2 := alloc_isInput (vm.alloc 8).1 4
    have hq3 := mark_quiet ((vm.alloc 8).1.alloc 4).1 hi1.inRange .pub
    have hq4 := mark_quiet (((vm.alloc 8).1.alloc 4).1.mark (vm.alloc 8).2 .pub) (r := ((vm.alloc 8).1.alloc 4).2) hi2.inRange .pub
    obtain ⟨h1, h3, h4, h5⟩ := ih ((((vm.alloc 8).1.alloc 4).1.mark (vm.alloc 8).2 .pub).mark ((vm.alloc 8).1.alloc 4).2 .pub)
    have hsz : sizeOf ((((vm.alloc 8).1.alloc 4).1.mark (vm.alloc 8).2 .pub).mark ((vm.alloc 8).1.alloc 4).2 .pub).nodes =
        sizeOf vm.nodes + 8 + 4 := by
      simp only [Vm.mark, alloc_size]
    refine ⟨((hq1.trans hq2).trans (hq3.trans hq4)).trans h1, by simp [allocInputs, h3], ?_, ?_⟩
    · rw [hsz] at h4
      simp only [allocInputs, List.flatMap_cons, List.cons_append, List.nil_append, Ordered]
      refine ⟨Nat.le_refl _, ?_, h4.mono ?_ (Nat.le_refl _)⟩
      · simp [Vm.alloc, sizeOf_append, Node.len]
      · simp [Vm.alloc, sizeOf_append, Node.len]
    · intro i hi
      rcases List.mem_cons.1 hi with rfl | hi
      · refine ⟨((hi1.later hq3.later).later hq4.later).later h1.later, ((hi2.later hq3.later).later hq4.later).later h1.later,
          rfl, rfl, h1.marks _ ?_, h1.marks _ ?_⟩
        · exact List.mem_cons_of_mem _ List.mem_cons_self
        · exact List.mem_cons_self
      · exact h5 i hi

/-- The inputs of blocks. -/
def inputsOf (bs : List CtrBlock) : List Ref := bs.flatMap fun b => [b.nonce, b.counter]

theorem blockCalls_spec {key k₀ iv : Ref} (is : List (Ref × Ref)) (c : Aes128) (vm : Vm) (hk : KeyInUse c vm key)
    (h₀ : c.key = some k₀) (hil : iv.len = 4) (hir : InRange vm iv)
    (hi : ∀ i ∈ is, IsInput vm.nodes i.1 ∧ IsInput vm.nodes i.2 ∧ i.1.len = 8 ∧ i.2.len = 4) :
    ∃ c' vm' bs, Aes128.blockCalls k₀ iv c vm is = .ok (c', vm', bs) ∧ Quiet vm vm' ∧
      (∀ b ∈ bs, CtrOk vm'.nodes key iv b) ∧ bs.map (fun b => (b.nonce, b.counter)) = is ∧
      KeyInUse c' vm' key ∧ c'.key = c.key ∧ c'.iv = c.iv := by
  induction is generalizing c vm with
  | nil => exact ⟨c, vm, [], rfl, .refl _, (fun _ h => nomatch h), rfl, hk, rfl, rfl⟩
  | cons i is ih =>
    obtain ⟨a1, a2, a3, a4⟩ := hi i (by simp)
    obtain ⟨c1, vm1, o, b1, b2, b3, b4, b5, b6⟩ := blockCall_spec hk h₀ a1 a2 a3 a4 hil hir
    obtain ⟨c2, vm2, bs, d1, d2, d4, d5, d6, d7, d8⟩ := ih c1 vm1 b4 (b5.trans h₀) (hir.later b2.later)
      (fun j hj => by
        obtain ⟨e1, e2, e3, e4⟩ := hi j (by simp [hj])
        exact ⟨e1.later b2.later, e2.later b2.later, e3, e4⟩)
    refine ⟨c2, vm2, ⟨i.1, i.2, o⟩ :: bs, by simp only [Aes128.blockCalls, b1, d1, bind, Outcome.bind], b2.trans d2, ?_,
      by simp [d5], d6, d7.trans b5, d8.trans b6⟩
    intro b hb
    rcases List.mem_cons.1 hb with rfl | hb
    · exact b3.later d2.later
    · exact d4 b hb

/-- New counter blocks: they compute AES, their inputs are new, in order, and public. -/
structure NewBlocks (vm vm' : Vm) (key iv : Ref) (bs : List CtrBlock) : Prop where
  quiet : Quiet vm vm'
  ok : ∀ b ∈ bs, CtrOk vm'.nodes key iv b
  ordered : Ordered (sizeOf vm.nodes) (inputsOf bs) (sizeOf vm'.nodes)
  marks : ∀ r ∈ inputsOf bs, (r, .pub) ∈ vm'.marks

theorem allocKeystream_spec {c : Aes128} {vm : Vm} {key k₀ iv : Ref} (hk : KeyInUse c vm key) (h₀ : c.key = some k₀)
    (hiv : c.iv = some iv) (hil : iv.len = 4) (hir : InRange vm iv) (len : Nat) :
    ∃ c' vm' bs, c.allocKeystream vm len = .ok (c', vm', bs) ∧ bs.length = divCeil16 len ∧ NewBlocks vm vm' key iv bs ∧
      KeyInUse c' vm' key ∧ c'.key = c.key ∧ c'.iv = c.iv := by
  obtain ⟨h1, h2, h3, h4⟩ := allocInputs_spec (divCeil16 len) vm
  obtain ⟨c', vm', bs, d1, d2, d4, d5, d6, d7, d8⟩ := blockCalls_spec (allocInputs (divCeil16 len) vm).2 c
    (allocInputs (divCeil16 len) vm).1 (hk.later h1.later) h₀ hil (hir.later h1.later)
    (fun i hi => ⟨(h4 i hi).1, (h4 i hi).2.1, (h4 i hi).2.2.1, (h4 i hi).2.2.2.1⟩)
  have hin : inputsOf bs = (allocInputs (divCeil16 len) vm).2.flatMap fun i => [i.1, i.2] := by
    rw [← d5, inputsOf, List.flatMap_map]
  refine ⟨c', vm', bs, by simp only [Aes128.allocKeystream, h₀, hiv]; exact d1, ?_, ⟨h1.trans d2, d4, ?_, ?_⟩, d6, d7, d8⟩
  · rw [← h2, ← d5, List.length_map]
  · rw [hin]; exact h3.mono (Nat.le_refl _) d2.later.size
  · intro r hr
    rw [hin, List.mem_flatMap] at hr
    obtain ⟨i, hi, hr⟩ := hr
    obtain ⟨-, -, -, -, m1, m2⟩ := h4 i hi
    simp only [List.mem_cons, List.not_mem_nil, or_false] at hr
    rcases hr with rfl | rfl
    · exact d2.marks _ m1
    · exact d2.marks _ m2

theorem allocPublic_spec (vm : Vm) (n : Nat) : Quiet vm (allocPublic vm n).1 ∧ IsInput (allocPublic vm n).1.nodes (allocPublic vm n).2 ∧
    (allocPublic vm n).2 = ⟨sizeOf vm.nodes, n⟩ ∧ ((allocPublic vm n).2, .pub) ∈ (allocPublic vm n).1.marks ∧
    sizeOf (allocPublic vm n).1.nodes = sizeOf vm.nodes + n := by
  have hi := alloc_isInput vm n
  exact ⟨(alloc_quiet vm n).trans (mark_quiet _ hi.inRange .pub), hi, rfl, List.mem_cons_self, alloc_size vm n⟩

theorem allocCtrBlock_spec {c : Aes128} {vm : Vm} {key k₀ iv : Ref} (hk : KeyInUse c vm key) (h₀ : c.key = some k₀)
    (hiv : c.iv = some iv) (hil : iv.len = 4) (hir : InRange vm iv) :
    ∃ c' vm' b, c.allocCtrBlock vm = .ok (c', vm', b) ∧ NewBlocks vm vm' key iv [b] ∧
      KeyInUse c' vm' key ∧ c'.key = c.key ∧ c'.iv = c.iv := by
  obtain ⟨a1, a2, a3, a4, a5⟩ := allocPublic_spec vm 8
  obtain ⟨b1, b2, b3, b4, b5⟩ := allocPublic_spec (allocPublic vm 8).1 4
  obtain ⟨c', vm', o, d1, d2, d3, d4, d5, d6⟩ := blockCall_spec (hk.later (a1.trans b1).later) h₀ (a2.later b1.later) b2
    (by rw [a3]) (by rw [b3]) hil (hir.later (a1.trans b1).later)
  refine ⟨c', vm', _, by simp only [Aes128.allocCtrBlock, h₀, hiv]; exact d1, ⟨(a1.trans b1).trans d2, by simpa using d3, ?_, ?_⟩,
    d4, d5, d6⟩
  · simp only [inputsOf, List.flatMap_cons, List.flatMap_nil, List.append_nil, Ordered, a3, b3]
    have := d2.later.size
    omega
  · simp only [inputsOf, List.flatMap_cons, List.flatMap_nil, List.append_nil, List.mem_cons, List.not_mem_nil, or_false]
    rintro r (rfl | rfl)
    · exact d2.marks _ (b1.marks _ a4)
    · exact d2.marks _ b4

theorem allocBlock_spec {c : Aes128} {vm : Vm} {key k₀ input : Ref} (hk : KeyInUse c vm key) (h₀ : c.key = some k₀)
    (hl : input.len = 16) (hr : InRange vm input) :
    ∃ c' vm' ks o, c.allocBlock vm input = .ok (c', vm', o) ∧ Quiet vm vm' ∧ Has vm'.nodes .aesKs [key] ks ∧
      Has vm'.nodes .aesPost [ks, input] o ∧ KeyInUse c' vm' key ∧ c'.key = c.key ∧ c'.iv = c.iv := by
  obtain ⟨c', vm', ks, h1, h2, h3, h4, h5, h6⟩ := schedule_spec hk h₀
  have hksl : ks.len = 176 := by
    obtain ⟨⟨_, _, -, h, -⟩, -⟩ := h3; rw [h]; rfl
  have hc : vm'.call .aesPost [ks, input] = _ := call_ok (by simp [hksl, hl, Circ.inLen])
  have hq := call_quiet hc
  have hh := call_has hc (by
    simp only [List.mem_cons, List.not_mem_nil, or_false]
    rintro r (rfl | rfl)
    · exact h3.inRange
    · exact hr.later h2.later) (by decide)
  exact ⟨c', _, ks, _, by simp only [Aes128.allocBlock, h₀, h1, bind, Outcome.bind, callOk, hc], h2.trans hq, h3.later hq.later, hh,
    h4.later hq.later, h5, h6⟩

end Tlsn.Gcm
