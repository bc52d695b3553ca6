import Verif.Gcm.Alloc

namespace Tlsn.Gcm

/-! ## Assigned inputs -/

/-- The part is assigned these bytes. -/
structure Holds (vm : Vm) (r : Ref) (b : Bytes) : Prop where
  len : b.length = r.len
  bytes : ∀ i < r.len, vm.assigned (r.addr + i) = b[i]?

theorem Holds.later {a b : Vm} (h : Later a b) {r : Ref} {x : Bytes} (hx : Holds a r x) : Holds b r x :=
  ⟨hx.len, fun i hi => by
    have := hx.bytes i hi
    rw [List.getElem?_eq_getElem (by rw [hx.len]; exact hi)] at this ⊢
    exact h.assigned _ _ this⟩

theorem Holds.value {A : AesCircuits} {f : Nat → Option Byte} {vm : Vm} {r : Ref} {x : Bytes} (hx : Holds vm r x)
    (hi : IsInput vm.nodes r) (hf : Inputs vm f) : vm.value A f r = some x :=
  hi.value hx.len fun i h => by
    have := hx.bytes i h
    rw [List.getElem?_eq_getElem (by rw [hx.len]; exact h)] at this ⊢
    exact hf _ _ this

theorem assign_holds {vm vm' : Vm} {r : Ref} {b : Bytes} (h : vm.assign r b = .ok vm') : Holds vm' r b := by
  obtain ⟨-, -, -, h1, h2, -⟩ := assign_spec h
  exact ⟨h1, h2⟩

theorem assign_later {vm vm' : Vm} {r : Ref} {b : Bytes} (h : vm.assign r b = .ok vm') : Later vm vm' := (assign_spec h).1

/-- The blocks are assigned this nonce and the counters from this one on. -/
def KsHolds (vm : Vm) (nonce : Bytes) : List CtrBlock → Nat → Prop
  | [], _ => True
  | b :: bs, ctr => Holds vm b.nonce nonce ∧ Holds vm b.counter (beBytes 4 ctr) ∧ KsHolds vm nonce bs (ctr + 1)

theorem KsHolds.later {a b : Vm} (h : Later a b) {nonce : Bytes} {bs : List CtrBlock} {ctr : Nat} (hx : KsHolds a nonce bs ctr) :
    KsHolds b nonce bs ctr := by
  induction bs generalizing ctr with
  | nil => trivial
  | cons x bs ih => exact ⟨hx.1.later h, hx.2.1.later h, ih hx.2.2⟩

theorem assignKs_later (nonce : Bytes) (bs : List CtrBlock) (ctr : Nat) (vm : Vm) :
    Later vm (assignKs nonce bs ctr vm).1 ∧ (assignKs nonce bs ctr vm).1.nodes = vm.nodes ∧
    (assignKs nonce bs ctr vm).1.marks = vm.marks := by
  induction bs generalizing ctr vm with
  | nil => exact ⟨.refl _, rfl, rfl⟩
  | cons b bs ih =>
    simp only [assignKs]
    split
    · exact ⟨.refl _, rfl, rfl⟩
    · rename_i vm1 h1
      obtain ⟨l1, n1, m1, -⟩ := assign_spec h1
      split
      · exact ⟨l1, n1, m1⟩
      · rename_i vm2 h2
        obtain ⟨l2, n2, m2, -⟩ := assign_spec h2
        obtain ⟨l3, n3, m3⟩ := ih (ctr + 1) vm2
        exact ⟨l1.trans (l2.trans l3), n3.trans (n2.trans n1), m3.trans (m2.trans m1)⟩

theorem assignKs_holds {nonce : Bytes} {bs : List CtrBlock} {ctr : Nat} {vm vm' : Vm}
    (h : assignKs nonce bs ctr vm = (vm', true)) : KsHolds vm' nonce bs ctr := by
  induction bs generalizing ctr vm with
  | nil => trivial
  | cons b bs ih =>
    simp only [assignKs] at h
    split at h
    · cases h
    · rename_i vm1 h1
      split at h
      · cases h
      · rename_i vm2 h2
        have l3 := (assignKs_later nonce bs (ctr + 1) vm2).1
        rw [h] at l3
        exact ⟨((assign_holds h1).later (assign_later h2)).later l3, (assign_holds h2).later l3, ih h⟩

/-! ## What blocks hold -/

/-- AES in counter mode, by blocks, from a counter on. -/
def ctrBlocks (aes : AesFn) (K IV nonce : Bytes) (ctr n : Nat) : List Bytes :=
  (List.range n).map fun i => (aes K (IV ++ nonce ++ beBytes 4 (ctr + i))).toList

theorem ctrBlocks_succ (aes : AesFn) (K IV nonce : Bytes) (ctr n : Nat) : ctrBlocks aes K IV nonce ctr (n + 1) =
    (aes K (IV ++ nonce ++ beBytes 4 ctr)).toList :: ctrBlocks aes K IV nonce (ctr + 1) n := by
  simp only [ctrBlocks, List.range_succ_eq_map, List.map_cons, List.map_map, Nat.add_zero]
  congr 1
  exact List.map_congr_left fun i _ => by simp only [Function.comp]; rw [show ctr + (i + 1) = ctr + 1 + i by omega]

theorem ctrBlocks_length (aes : AesFn) (K IV nonce : Bytes) (ctr n : Nat) :
    (ctrBlocks aes K IV nonce ctr n).flatten.length = 16 * n := by
  induction n generalizing ctr with
  | zero => rfl
  | succ n ih => rw [ctrBlocks_succ, List.flatten_cons, List.length_append, ih]; simp; omega

theorem blocks_value {A : AesCircuits} {f : Nat → Option Byte} {vm : Vm} {key iv : Ref} {K IV nonce : Bytes} {bs : List CtrBlock}
    {ctr : Nat} (hK : vm.value A f key = some K) (hIV : vm.value A f iv = some IV) (hf : Inputs vm f)
    (ho : ∀ b ∈ bs, CtrOk vm.nodes key iv b) (hh : KsHolds vm nonce bs ctr) :
    (bs.map (·.output)).mapM (vm.value A f) = some (ctrBlocks A.aes K IV nonce ctr bs.length) := by
  induction bs generalizing ctr with
  | nil => rfl
  | cons b bs ih =>
    have hb := ho b (by simp)
    rw [List.map_cons, List.mapM_cons, hb.value hK hIV (hh.1.value hb.nonce hf) (hh.2.1.value hb.counter hf),
      ih (fun x hx => ho x (by simp [hx])) hh.2.2, List.length_cons, ctrBlocks_succ]
    rfl

/-- The outputs are the blocks with the pieces of the input from `addr` on. -/
def XorOk (ns : List Node) : Nat → List CtrBlock → List Ref → Prop
  | _, [], [] => True
  | addr, b :: bs, o :: os => Has ns (.xor 16) [b.output, ⟨addr, 16⟩] o ∧ XorOk ns (addr + 16) bs os
  | _, _, _ => False

theorem XorOk.later {a b : Vm} (h : Later a b) {addr : Nat} {bs : List CtrBlock} {os : List Ref} (hx : XorOk a.nodes addr bs os) :
    XorOk b.nodes addr bs os := by
  induction bs generalizing addr os with
  | nil => cases os <;> exact hx
  | cons x bs ih => cases os with
    | nil => exact hx
    | cons o os => exact ⟨hx.1.later h, ih hx.2⟩

theorem XorOk.lens {ns : List Node} {addr : Nat} {bs : List CtrBlock} {os : List Ref} (hx : XorOk ns addr bs os) :
    (os.map (·.len)).sum = 16 * bs.length ∧ ∀ o ∈ os, o.addr + o.len ≤ sizeOf ns := by
  induction bs generalizing addr os with
  | nil => cases os with
    | nil => exact ⟨rfl, fun _ h => nomatch h⟩
    | cons o os => exact hx.elim
  | cons x bs ih => cases os with
    | nil => exact hx.elim
    | cons o os =>
      obtain ⟨h1, h2⟩ := ih hx.2
      have ho : o.len = 16 := by
        obtain ⟨⟨_, _, -, h, -⟩, -⟩ := hx.1
        rw [h]; rfl
      refine ⟨by simp [ho, h1]; omega, fun r hr => ?_⟩
      rcases List.mem_cons.1 hr with rfl | hr
      · exact hx.1.inRange
      · exact h2 r hr

theorem xorBytes_append {a b c d : Bytes} (h : a.length = b.length) : xorBytes (a ++ c) (b ++ d) = xorBytes a b ++ xorBytes c d :=
  List.zipWith_append h

theorem XorOk.value {A : AesCircuits} {f : Nat → Option Byte} {vm : Vm} {addr : Nat} {bs : List CtrBlock} {os : List Ref}
    (hx : XorOk vm.nodes addr bs os) {ks : List Bytes} (hk : (bs.map (·.output)).mapM (vm.value A f) = some ks)
    (hl : ∀ k ∈ ks, k.length = 16) {P : Bytes} (hp : vm.value A f ⟨addr, 16 * bs.length⟩ = some P) :
    ∃ l, os.mapM (vm.value A f) = some l ∧ l.flatten = xorBytes ks.flatten P := by
  induction bs generalizing addr os ks P with
  | nil => cases os with
    | nil => cases hk; exact ⟨[], rfl, by simp [xorBytes]⟩
    | cons o os => exact hx.elim
  | cons x bs ih => cases os with
    | nil => exact hx.elim
    | cons o os =>
      rw [List.map_cons, List.mapM_cons] at hk
      cases h1 : vm.value A f x.output with
      | none => rw [h1] at hk; cases hk
      | some k =>
        cases h2 : (bs.map (·.output)).mapM (vm.value A f) with
        | none => rw [h1, h2] at hk; cases hk
        | some ks' =>
          rw [h1, h2] at hk
          cases hk
          have p1 := readRef_sub hp (k := 0) (l := 16) (by simp only [List.length_cons]; omega)
          have p2 := readRef_sub hp (k := 16) (l := 16 * bs.length) (by simp only [List.length_cons]; omega)
          simp only [Nat.add_zero] at p1
          obtain ⟨l, e1, e2⟩ := ih hx.2 h2 (fun y hy => hl y (by simp [hy])) p2
          have hkl : k.length = 16 := hl k (by simp)
          have hv : vm.value A f o = some (xorBytes k ((P.drop 0).take 16)) := by
            rw [hx.1.value]
            have p1' : vm.value A f ⟨addr, 16⟩ = some ((P.drop 0).take 16) := p1
            simp only [List.mapM_cons, h1, p1', List.mapM_nil, Circ.eval]
            simp [← hkl]
          refine ⟨_, by rw [List.mapM_cons, hv, e1]; rfl, ?_⟩
          have hPl := readRef_length hp
          simp only [List.length_cons] at hPl
          have hp16 : ((P.drop 0).take 16).length = 16 := by simp; omega
          have hP : P = (P.drop 0).take 16 ++ (P.drop 16).take (16 * bs.length) := by
            rw [List.drop_zero, List.take_of_length_le (l := P.drop 16) (by simp; omega), List.take_append_drop]
          rw [List.flatten_cons, List.flatten_cons, e2, ← xorBytes_append (by rw [hkl, hp16]), ← hP]

/-! ## `apply` and `to_vector` -/

theorem flatten_spec {vm : Vm} {blocks : List Ref} (hr : ∀ r ∈ blocks, InRange vm r) (hp : 0 < (blocks.map (·.len)).sum) :
    ∃ vm' out, flattenBlocks vm blocks = .ok (vm', out) ∧ Quiet vm vm' ∧
      Has vm'.nodes (.ident (blocks.map (·.len)).sum) blocks out ∧ out.len = (blocks.map (·.len)).sum := by
  have hc : vm.call (.ident (blocks.map (·.len)).sum) blocks = _ := call_ok rfl
  exact ⟨_, _, by simp only [flattenBlocks, hc], call_quiet hc, call_has hc hr hp, rfl⟩

theorem applyLoop_spec {key iv : Ref} (input : Ref) (bs : List CtrBlock) (pos : Nat) (vm : Vm) (hr : InRange vm input)
    (ho : ∀ b ∈ bs, CtrOk vm.nodes key iv b) (hl : pos + 16 * bs.length ≤ input.len) :
    ∃ vm' os, applyLoop input bs pos vm = .ok (vm', os) ∧ Quiet vm vm' ∧ XorOk vm'.nodes (input.addr + pos) bs os := by
  induction bs generalizing pos vm with
  | nil => exact ⟨vm, [], rfl, .refl _, trivial⟩
  | cons b bs ih =>
    have hb := ho b (by simp)
    simp only [List.length_cons] at hl
    have hc : vm.call (.xor 16) [b.output, ⟨input.addr + pos, 16⟩] = _ := call_ok (by simp [hb.outLen, Circ.inLen])
    have hq := call_quiet hc
    have hh := call_has hc (by
      simp only [List.mem_cons, List.not_mem_nil, or_false]
      rintro r (rfl | rfl)
      · exact hb.inRange
      · simp only [InRange] at hr ⊢; omega) (by decide)
    obtain ⟨vm', os, d1, d2, d3⟩ := ih (pos + 16) _ (hr.later hq.later) (fun x hx => (ho x (by simp [hx])).later hq.later) (by omega)
    refine ⟨vm', _ :: os, ?_, hq.trans d2, hh.later d2.later, by rw [Nat.add_assoc]; exact d3⟩
    simp only [applyLoop]
    rw [if_neg (by omega)]
    simp only [hc, d1, bind, Outcome.bind]

/-- The graph of `apply`. -/
structure ApplyOk (ns : List Node) (bs : List CtrBlock) (input out : Ref) : Prop where
  inLen : input.len = 16 * bs.length
  outLen : out.len = 16 * bs.length
  call : ∃ os, XorOk ns input.addr bs os ∧ Has ns (.ident (16 * bs.length)) os out

theorem ApplyOk.later {a b : Vm} (h : Later a b) {bs : List CtrBlock} {i o : Ref} (hx : ApplyOk a.nodes bs i o) : ApplyOk b.nodes bs i o := by
  obtain ⟨h1, h2, os, h3, h4⟩ := hx
  exact ⟨h1, h2, os, h3.later h, h4.later h⟩

theorem apply_spec {key iv : Ref} {bs : List CtrBlock} {vm : Vm} {input : Ref} (hr : InRange vm input)
    (ho : ∀ b ∈ bs, CtrOk vm.nodes key iv b) (hl : input.len = 16 * bs.length) (hn : bs ≠ []) :
    ∃ vm' out, apply bs vm input = .ok (vm', out) ∧ Quiet vm vm' ∧ ApplyOk vm'.nodes bs input out := by
  obtain ⟨vm1, os, h1, h2, h3⟩ := applyLoop_spec input bs 0 vm hr ho (by omega)
  rw [Nat.add_zero] at h3
  obtain ⟨h4, h5⟩ := h3.lens
  have hpos : 0 < bs.length := List.length_pos_iff.2 hn
  obtain ⟨vm2, out, g1, g2, g3, g4⟩ := flatten_spec h5 (by rw [h4]; omega)
  rw [h4] at g3 g4
  refine ⟨vm2, out, ?_, h2.trans g2, hl, g4, os, h3.later g2.later, g3⟩
  simp only [apply]
  rw [if_neg (by omega), if_neg hn]
  simp only [h1, bind, Outcome.bind, g1]

theorem apply_inv {bs : List CtrBlock} {vm vm' : Vm} {input out : Ref} (h : apply bs vm input = .ok (vm', out)) :
    input.len = 16 * bs.length ∧ bs ≠ [] := by
  simp only [apply] at h
  split at h
  · cases h
  · rename_i h1
    split at h
    · cases h
    · rename_i h2
      exact ⟨by omega, h2⟩

theorem xorBytes_comm (a b : Bytes) : xorBytes a b = xorBytes b a := by
  unfold xorBytes
  rw [List.zipWith_comm]
  congr 1
  funext x y
  exact UInt8.xor_comm _ _

theorem ctrBlocks_lens {aes : AesFn} {K IV nonce : Bytes} {ctr n : Nat} : ∀ k ∈ ctrBlocks aes K IV nonce ctr n, k.length = 16 := by
  intro k hk
  simp only [ctrBlocks, List.mem_map] at hk
  obtain ⟨i, -, rfl⟩ := hk
  simp

theorem ApplyOk.value {A : AesCircuits} {f : Nat → Option Byte} {vm : Vm} {key iv : Ref} {K IV nonce : Bytes} {bs : List CtrBlock}
    {ctr : Nat} {i o : Ref} (h : ApplyOk vm.nodes bs i o) (hK : vm.value A f key = some K) (hIV : vm.value A f iv = some IV)
    (hf : Inputs vm f) (ho : ∀ b ∈ bs, CtrOk vm.nodes key iv b) (hh : KsHolds vm nonce bs ctr) {P : Bytes}
    (hp : vm.value A f i = some P) :
    vm.value A f o = some (xorBytes P (ctrBlocks A.aes K IV nonce ctr bs.length).flatten) := by
  obtain ⟨h1, -, os, h3, h4⟩ := h
  obtain ⟨l, e1, e2⟩ := h3.value (blocks_value hK hIV hf ho hh) ctrBlocks_lens (P := P) (by rw [← h1]; exact hp)
  rw [h4.value, e1]
  simp only [Option.map_some, Circ.eval, e2]
  rw [xorBytes_comm]

/-- The graph of `to_vector`, before it is cut. -/
structure VecOk (ns : List Node) (bs : List CtrBlock) (out : Ref) : Prop where
  outLen : out.len = 16 * bs.length
  call : Has ns (.ident (16 * bs.length)) (bs.map (·.output)) out

theorem VecOk.later {a b : Vm} (h : Later a b) {bs : List CtrBlock} {o : Ref} (hx : VecOk a.nodes bs o) : VecOk b.nodes bs o :=
  ⟨hx.outLen, hx.call.later h⟩

theorem outputs_sum {ns : List Node} {key iv : Ref} {bs : List CtrBlock} (ho : ∀ b ∈ bs, CtrOk ns key iv b) :
    ((bs.map (·.output)).map (·.len)).sum = 16 * bs.length := by
  induction bs with
  | nil => rfl
  | cons b bs ih =>
    have := ih fun x hx => ho x (by simp [hx])
    simp only [List.map_cons, List.sum_cons, List.length_cons, (ho b (by simp)).outLen] at this ⊢
    omega

theorem toVector_spec {key iv : Ref} {bs : List CtrBlock} {vm : Vm} {len : Nat} (ho : ∀ b ∈ bs, CtrOk vm.nodes key iv b)
    (hn : len ≠ 0) (hl : divCeil16 len = bs.length) :
    ∃ vm' o, toVector bs vm len = .ok (vm', ⟨o.addr, len⟩) ∧ Quiet vm vm' ∧ VecOk vm'.nodes bs o := by
  have hs := outputs_sum ho
  have hne : bs ≠ [] := by
    rintro rfl
    simp only [divCeil16, List.length_nil] at hl
    omega
  have hpos : 0 < bs.length := List.length_pos_iff.2 hne
  obtain ⟨vm1, o, h1, h2, h3, h4⟩ := flatten_spec (vm := vm) (blocks := bs.map (·.output)) (by
    intro r hr
    obtain ⟨b, hb, rfl⟩ := List.mem_map.1 hr
    exact (ho b hb).inRange) (by omega)
  rw [hs] at h3 h4
  refine ⟨vm1, o, ?_, h2, h4, h3⟩
  simp only [toVector]
  rw [if_neg hn, if_neg hne, if_neg (by simp [hl])]
  simp only [h1, bind, Outcome.bind, Ref.truncate]
  rw [Nat.min_eq_left (by rw [h4]; simp only [divCeil16] at hl; omega)]

theorem toVector_inv {bs : List CtrBlock} {vm vm' : Vm} {len : Nat} {out : Ref} (h : toVector bs vm len = .ok (vm', out)) :
    len ≠ 0 ∧ divCeil16 len = bs.length := by
  simp only [toVector] at h
  split at h
  · cases h
  · rename_i h1
    split at h
    · cases h
    · split at h
      · cases h
      · rename_i h2
        exact ⟨h1, Decidable.not_not.1 h2⟩

theorem VecOk.value {A : AesCircuits} {f : Nat → Option Byte} {vm : Vm} {key iv : Ref} {K IV nonce : Bytes} {bs : List CtrBlock}
    {ctr : Nat} {o : Ref} (h : VecOk vm.nodes bs o) (hK : vm.value A f key = some K) (hIV : vm.value A f iv = some IV)
    (hf : Inputs vm f) (ho : ∀ b ∈ bs, CtrOk vm.nodes key iv b) (hh : KsHolds vm nonce bs ctr) :
    vm.value A f o = some (ctrBlocks A.aes K IV nonce ctr bs.length).flatten := by
  rw [h.call.value, blocks_value hK hIV hf ho hh]
  rfl

end Tlsn.Gcm
