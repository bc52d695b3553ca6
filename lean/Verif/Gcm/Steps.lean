import Verif.Gcm.Ready

namespace Tlsn.Gcm

/-! ## What the calls give, whatever is assigned -/

/-- The graph behind the result of `apply_keystream`. -/
def Applied (role : Role) (key iv : Ref) (vm : Vm) (nonce : Bytes) (len : Nat) (i o : Ref) : Prop :=
  ∃ bs inp out, (∀ b ∈ bs, CtrOk vm.nodes key iv b) ∧ KsHolds vm nonce bs 2 ∧ ApplyOk vm.nodes bs inp out ∧
    bs.length = divCeil16 len ∧ i = ⟨inp.addr, len⟩ ∧ o = ⟨out.addr, len⟩ ∧ IsInput vm.nodes inp ∧
    (role = .leader → Holds vm ⟨inp.addr + len, 16 * bs.length - len⟩ (List.replicate (16 * bs.length - len) 0))

/-- The graph behind the result of `take_keystream`. -/
def Taken (key iv : Ref) (vm : Vm) (nonce : Bytes) (len : Nat) (o : Ref) : Prop :=
  ∃ bs out, (∀ b ∈ bs, CtrOk vm.nodes key iv b) ∧ KsHolds vm nonce bs 2 ∧ VecOk vm.nodes bs out ∧ bs.length = divCeil16 len ∧
    o = ⟨out.addr, len⟩

/-- The block of a tag. -/
structure TagOk (role : Role) (key iv : Ref) (vm : Vm) (nonce : Bytes) (j : CtrBlock × Share) : Prop where
  ok : CtrOk vm.nodes key iv j.1
  share : ShareOk vm role j.1.output j.2
  nonce : Holds vm j.1.nonce nonce
  counter : Holds vm j.1.counter (beBytes 4 1)

/-- The blocks of tags, one for each nonce. -/
def TagsOk (role : Role) (key iv : Ref) (vm : Vm) : List Bytes → List (CtrBlock × Share) → Prop
  | [], [] => True
  | n :: ns, j :: js => TagOk role key iv vm n j ∧ TagsOk role key iv vm ns js
  | _, _ => False

theorem Applied.later {a b : Vm} (h : Later a b) {role : Role} {key iv : Ref} {nonce : Bytes} {len : Nat} {i o : Ref}
    (hx : Applied role key iv a nonce len i o) : Applied role key iv b nonce len i o := by
  obtain ⟨bs, inp, out, h1, h2, h3, h4, h5, h6, h7, h8⟩ := hx
  exact ⟨bs, inp, out, fun x hx => (h1 x hx).later h, h2.later h, h3.later h, h4, h5, h6, h7.later h, fun e => (h8 e).later h⟩

theorem Taken.later {a b : Vm} (h : Later a b) {key iv : Ref} {nonce : Bytes} {len : Nat} {o : Ref}
    (hx : Taken key iv a nonce len o) : Taken key iv b nonce len o := by
  obtain ⟨bs, out, h1, h2, h3, h4, h5⟩ := hx
  exact ⟨bs, out, fun x hx => (h1 x hx).later h, h2.later h, h3.later h, h4, h5⟩

theorem TagOk.later {a b : Vm} (h : Later a b) {role : Role} {key iv : Ref} {nonce : Bytes} {j : CtrBlock × Share}
    (hx : TagOk role key iv a nonce j) : TagOk role key iv b nonce j :=
  ⟨hx.ok.later h, hx.share.later h, hx.nonce.later h, hx.counter.later h⟩

theorem TagsOk.later {a b : Vm} (h : Later a b) {role : Role} {key iv : Ref} {ns : List Bytes} {js : List (CtrBlock × Share)}
    (hx : TagsOk role key iv a ns js) : TagsOk role key iv b ns js := by
  induction ns generalizing js with
  | nil => cases js <;> exact hx
  | cons n ns ih => cases js with
    | nil => exact hx
    | cons j js => exact ⟨hx.1.later h, ih hx.2⟩

theorem IsInput.sub {ns : List Node} {r : Ref} (h : IsInput ns r) {k l : Nat} (hk : k + l ≤ r.len) : IsInput ns ⟨r.addr + k, l⟩ := by
  obtain ⟨pre, n, post, h1, h2, h3⟩ := h
  exact ⟨pre, n, post, h1, by simp only; omega, by simp only; omega⟩

theorem consume_ok {ks rest got : List CtrBlock} {len : Nat} (h : consume ks len = .ok (rest, got)) :
    got.length = divCeil16 len ∧ rest ++ got = ks := by
  simp only [consume] at h
  split at h
  · cases h
  · cases h
    exact ⟨by rw [List.length_drop]; omega, List.take_append_drop _ _⟩

theorem GcmOk.rest {role : Role} {key iv : Ref} {vm : Vm} {g : Gcm} (h : GcmOk role key iv vm g) {rest got : List CtrBlock}
    (he : rest ++ got = g.keystream) {input : Ref} (hi : IsInput vm.nodes input) :
    GcmOk role key iv vm { g with input := input, keystream := rest } :=
  ⟨fun b hb => h.keystream b (by rw [← he]; simp [hb]), h.j0s, hi⟩

/-- A result that satisfies `P`, and no panic. -/
def Good {α : Type} (P : α → Prop) : Outcome GcmError α → Prop
  | .ok a => P a
  | .err _ => True
  | .panic => False

/-- A step that only adds to the machine and leaves a state that computes the same, with a result that satisfies `Q`. -/
structure StepOk {α : Type} (role : Role) (key iv : Ref) (vm : Vm) (Q : Vm → α → Prop) (r : Gcm × Vm × Outcome GcmError α) : Prop where
  later : Later vm r.2.1
  ok : GcmOk role key iv r.2.1 r.1
  result : Good (Q r.2.1) r.2.2

theorem padInput_spec {role : Role} {vm : Vm} {input out : Ref} {padding len : Nat} (hi : input.len = len + padding)
    (ho : out.len = len + padding) :
    match padInput role vm input out padding len with
    | .error vm' => vm' = vm ∧ role = .leader ∧ ¬ Free vm ⟨input.addr + len, padding⟩
    | .ok (vm', i, o) => Later vm vm' ∧ vm'.nodes = vm.nodes ∧ i = ⟨input.addr, len⟩ ∧ o = ⟨out.addr, len⟩ ∧
        (role = .leader → Holds vm' ⟨input.addr + len, padding⟩ (List.replicate padding 0)) ∧ (Sound vm → Sound vm') ∧
        ∀ r, Disj r ⟨input.addr + len, padding⟩ → Free vm r → Free vm' r := by
  have e1 : len + padding - padding = len := by omega
  have e2 : len + padding - len = padding := by omega
  by_cases hp : padding > 0
  · cases role with
    | leader =>
      simp only [padInput, if_pos hp, Ref.splitOff, hi, e1, e2, if_true]
      cases ha : vm.assign ⟨input.addr + len, padding⟩ (List.replicate padding 0) with
      | error e =>
        refine ⟨rfl, trivial, fun hf => ?_⟩
        obtain ⟨vm', h⟩ := assign_free (b := List.replicate padding 0) hf (by simp)
        rw [ha] at h; cases h
      | ok vm' =>
        refine ⟨assign_later ha, (assign_spec ha).2.1, rfl, ?_, fun _ => assign_holds ha, fun hs => hs.assign ha, fun r hd hf => hd.free ha hf⟩
        simp only [Ref.truncate, ho]; rw [Nat.min_eq_left (by omega)]
    | follower =>
      simp only [padInput, if_pos hp, Ref.splitOff, hi, e1]
      refine ⟨.refl _, rfl, rfl, ?_, (fun h => nomatch h), id, fun _ _ h => h⟩
      simp only [Ref.truncate, ho]; rw [Nat.min_eq_left (by omega)]
  · have hp0 : padding = 0 := by omega
    subst hp0
    simp only [padInput, if_neg hp]
    refine ⟨.refl _, trivial, ?_, ?_, fun _ => ⟨rfl, fun i hi => nomatch hi⟩, id, fun _ _ h => h⟩
    · cases input; simp only at hi; simp only [hi, Nat.add_zero]
    · cases out; simp only at ho; simp only [ho, Nat.add_zero]

theorem applyKeystream_ok {role : Role} {key iv : Ref} {vm : Vm} {g : Gcm} (h : GcmOk role key iv vm g) (nonce : Bytes) (len : Nat) :
    StepOk role key iv vm (fun vm' r => Applied role key iv vm' nonce len r.1 r.2) (g.applyKeystream role vm nonce len) := by
  unfold Gcm.applyKeystream
  split
  · exact ⟨.refl _, h, trivial⟩
  · rename_i hn
    dsimp only
    split
    · exact ⟨.refl _, h, trivial⟩
    · rename_i hp
      have hin : IsInput vm.nodes (g.input.splitOff (g.input.len - divCeil16 len * 16)).1 :=
        h.input.sub (k := 0) (by omega)
      have hin2 : IsInput vm.nodes (g.input.splitOff (g.input.len - divCeil16 len * 16)).2 :=
        h.input.sub (by omega)
      split
      · exact ⟨.refl _, ⟨h.keystream, h.j0s, hin⟩, trivial⟩
      · rename_i rest ks hc
        obtain ⟨c1, c2⟩ := consume_ok hc
        rw [show divCeil16 (divCeil16 len * 16) = divCeil16 len by rw [Nat.mul_comm, divCeil16_mul]] at c1
        have hg := h.rest c2 hin
        have hks : ∀ b ∈ ks, CtrOk vm.nodes key iv b := fun b hb => h.keystream b (by rw [← c2]; simp [hb])
        have hl2 : (g.input.splitOff (g.input.len - divCeil16 len * 16)).2.len = 16 * ks.length := by
          simp only [Ref.splitOff]; omega
        split
        · exact ⟨.refl _, hg, trivial⟩
        · rename_i hpan
          exfalso
          by_cases hne : ks = []
          · rw [hne] at hpan hl2
            simp only [apply, hl2] at hpan
            simp at hpan
          · obtain ⟨vm', out, e, -⟩ := apply_spec hin2.inRange hks hl2 hne
            rw [e] at hpan
            cases hpan
        · rename_i vm1 out ha
          obtain ⟨vm1', out', e, hq, hao⟩ := apply_spec hin2.inRange hks hl2 (apply_inv ha).2
          rw [ha] at e
          cases e
          have l2 := (assignKs_later nonce ks 2 vm1).1
          split
          · rename_i vm2 has
            rw [has] at l2
            exact ⟨hq.later.trans l2, hg.later (hq.later.trans l2), trivial⟩
          · rename_i vm2 has
            have hh := assignKs_holds has
            rw [has] at l2
            have l := hq.later.trans l2
            have hpl : 16 * ks.length = len + (divCeil16 len * 16 - len) := by rw [c1]; simp only [divCeil16]; omega
            have hps := padInput_spec (role := role) (vm := vm2) (by rw [hl2]; exact hpl) (by rw [hao.outLen]; exact hpl)
            split
            · rename_i vm3 e
              rw [e] at hps
              rw [hps.1]
              exact ⟨l, hg.later l, trivial⟩
            · rename_i vm3 r e
              rw [e] at hps
              obtain ⟨l3, -, p1, p2, p3, -⟩ := hps
              refine ⟨l.trans l3, hg.later (l.trans l3), ks, _, _, fun b hb => (hks b hb).later (l.trans l3), hh.later l3, hao.later (l2.trans l3), c1,
                p1, p2, hin2.later (l.trans l3), ?_⟩
              rw [show 16 * ks.length - len = divCeil16 len * 16 - len by omega]
              exact p3

theorem takeKeystream_ok {role : Role} {key iv : Ref} {vm : Vm} {g : Gcm} (h : GcmOk role key iv vm g) (nonce : Bytes) (len : Nat) :
    StepOk role key iv vm (fun vm' r => Taken key iv vm' nonce len r) (g.takeKeystream vm nonce len) := by
  unfold Gcm.takeKeystream
  split
  · exact ⟨.refl _, h, trivial⟩
  · split
    · exact ⟨.refl _, h, trivial⟩
    · split
      · exact ⟨.refl _, h, trivial⟩
      · rename_i rest ks hc
        obtain ⟨c1, c2⟩ := consume_ok hc
        have hg := h.rest c2 h.input
        have l1 := (assignKs_later nonce ks 2 vm).1
        dsimp only
        split
        · rename_i vm1 has
          rw [has] at l1
          exact ⟨l1, hg.later l1, trivial⟩
        · rename_i vm1 has
          have hh := assignKs_holds has
          rw [has] at l1
          have hks : ∀ b ∈ ks, CtrOk vm1.nodes key iv b := fun b hb => (h.keystream b (by rw [← c2]; simp [hb])).later l1
          split
          · exact ⟨l1, hg.later l1, trivial⟩
          · rename_i hpan
            exfalso
            by_cases hz : len = 0
            · simp [toVector, hz] at hpan
            · obtain ⟨vm', o, e, -⟩ := toVector_spec (vm := vm1) hks hz c1.symm
              rw [e] at hpan; cases hpan
          · rename_i vm2 out hv
            obtain ⟨v1, v2⟩ := toVector_inv hv
            obtain ⟨vm2', o, e, hq, hvo⟩ := toVector_spec (vm := vm1) hks v1 v2
            rw [hv] at e
            cases e
            exact ⟨l1.trans hq.later, hg.later (l1.trans hq.later), ks, o, fun b hb => (hks b hb).later hq.later, hh.later hq.later, hvo, c1, rfl⟩

theorem getLast?_split {α : Type} {l : List α} {a : α} (h : l.getLast? = some a) : l = l.dropLast ++ [a] := by
  have hne : l ≠ [] := by rintro rfl; cases h
  rw [List.getLast?_eq_some_getLast hne] at h
  cases h
  exact (List.dropLast_concat_getLast hne).symm

/-- The block of one tag, if there is one. -/
theorem takeJ0_ok {role : Role} {key iv : Ref} {vm : Vm} {g : Gcm} (h : GcmOk role key iv vm g) (nonce : Bytes) (hj : g.j0s ≠ []) :
    StepOk role key iv vm (fun vm' r => TagOk role key iv vm' nonce r) (g.takeJ0 vm nonce) ∧
      (∀ j, (g.takeJ0 vm nonce).2.2 = .ok j → (g.takeJ0 vm nonce).1.j0s.length + 1 = g.j0s.length) := by
  unfold Gcm.takeJ0
  split
  · exact ⟨⟨.refl _, h, trivial⟩, fun _ h => nomatch h⟩
  · split
    · rename_i hl
      exact absurd (List.getLast?_eq_none_iff.1 hl) hj
    · rename_i j hl
      have hs := getLast?_split hl
      have hg : GcmOk role key iv vm { g with j0s := g.j0s.dropLast } :=
        ⟨h.keystream, fun x hx => h.j0s x (List.dropLast_subset _ hx), h.input⟩
      have hm := h.j0s j (by rw [hs]; simp)
      dsimp only
      split
      · exact ⟨⟨.refl _, hg, trivial⟩, fun _ h => nomatch h⟩
      · rename_i vm1 a1
        have l1 := assign_later a1
        split
        · exact ⟨⟨l1, hg.later l1, trivial⟩, fun _ h => nomatch h⟩
        · rename_i vm2 a2
          have l2 := assign_later a2
          exact ⟨⟨l1.trans l2, hg.later (l1.trans l2), hm.1.later (l1.trans l2), hm.2.later (l1.trans l2), (assign_holds a1).later l2, assign_holds a2⟩,
            fun _ _ => by
              have := congrArg List.length hs
              simp only [List.length_append, List.length_singleton] at this
              exact this.symm⟩

theorem takeJ0s_ok {role : Role} {key iv : Ref} (ns : List Bytes) {vm : Vm} {g : Gcm} (h : GcmOk role key iv vm g)
    (hl : ns.length ≤ g.j0s.length) :
    StepOk role key iv vm (fun vm' r => TagsOk role key iv vm' ns r) (Gcm.takeJ0s ns g vm) := by
  induction ns generalizing g vm with
  | nil => exact ⟨.refl _, h, trivial⟩
  | cons n ns ih =>
    simp only [List.length_cons] at hl
    obtain ⟨h1, h2⟩ := takeJ0_ok h n (by rintro e; rw [e] at hl; simp at hl)
    unfold Gcm.takeJ0s
    split
    · rename_i g1 vm1 e he
      rw [he] at h1
      exact ⟨h1.later, h1.ok, trivial⟩
    · rename_i g1 vm1 he
      rw [he] at h1
      exact h1.result.elim
    · rename_i g1 vm1 j he
      rw [he] at h1 h2
      have hlen := h2 j rfl
      simp only at hlen
      have h3 := ih (g := g1) (vm := vm1) h1.ok (by omega)
      split
      · rename_i g2 vm2 e he2
        rw [he2] at h3
        exact ⟨h1.later.trans h3.later, h3.ok, trivial⟩
      · rename_i g2 vm2 he2
        rw [he2] at h3
        exact h3.result.elim
      · rename_i g2 vm2 js he2
        rw [he2] at h3
        exact ⟨h1.later.trans h3.later, h3.ok, TagOk.later h3.later h1.result, h3.result⟩

theorem tags_ok {role : Role} {key iv : Ref} (ns : List Bytes) {vm : Vm} {g : Gcm} (h : GcmOk role key iv vm g) :
    StepOk role key iv vm (fun vm' r => TagsOk role key iv vm' ns r) (g.tags vm ns) := by
  unfold Gcm.tags
  split
  · exact ⟨.refl _, h, trivial⟩
  · exact takeJ0s_ok ns h (by omega)

/-! ## Histories -/

/-- What the output of an operation is. -/
def OutOk (role : Role) (key iv : Ref) (vm : Vm) : GcmOp → GcmOut → Prop
  | .apply n len, .applied i o => Applied role key iv vm n len i o
  | .take n len, .taken o => Taken key iv vm n len o
  | .tags ns, .tags js => TagsOk role key iv vm ns js
  | _, .none => True
  | _, _ => False

theorem OutOk.later {a b : Vm} (h : Later a b) {role : Role} {key iv : Ref} {op : GcmOp} {out : GcmOut} (hx : OutOk role key iv a op out) :
    OutOk role key iv b op out := by
  cases op <;> cases out <;> first
    | exact hx.elim
    | trivial
    | exact Applied.later h hx
    | exact Taken.later h hx
    | exact TagsOk.later h hx

theorem run_ok {role : Role} {key iv : Ref} (op : GcmOp) {g : Gcm} {vm : Vm} (h : GcmOk role key iv vm g) :
    Later vm (op.run role g vm).2.1 ∧ GcmOk role key iv (op.run role g vm).2.1 (op.run role g vm).1 ∧
      OutOk role key iv (op.run role g vm).2.1 op (op.run role g vm).2.2 := by
  cases op with
  | apply n len =>
    have h1 := applyKeystream_ok h n len
    simp only [GcmOp.run]
    revert h1
    rcases g.applyKeystream role vm n len with ⟨g', vm', _ | _ | _⟩ <;> intro h1
    · exact ⟨h1.later, h1.ok, h1.result⟩
    · exact ⟨h1.later, h1.ok, trivial⟩
    · exact h1.result.elim
  | take n len =>
    have h1 := takeKeystream_ok h n len
    simp only [GcmOp.run]
    revert h1
    rcases g.takeKeystream vm n len with ⟨g', vm', _ | _ | _⟩ <;> intro h1
    · exact ⟨h1.later, h1.ok, h1.result⟩
    · exact ⟨h1.later, h1.ok, trivial⟩
    · exact h1.result.elim
  | tags ns =>
    have h1 := tags_ok ns h
    simp only [GcmOp.run]
    revert h1
    rcases g.tags vm ns with ⟨g', vm', _ | _ | _⟩ <;> intro h1
    · exact ⟨h1.later, h1.ok, h1.result⟩
    · exact ⟨h1.later, h1.ok, trivial⟩
    · exact h1.result.elim
  | vmAlloc n v =>
    have l := (alloc_later vm n).trans (mark_later (vm.alloc n).1 (vm.alloc n).2 v)
    exact ⟨l, h.later l, trivial⟩
  | vmCall c args =>
    simp only [GcmOp.run]
    cases hc : vm.call c args with
    | error e => exact ⟨.refl _, h, trivial⟩
    | ok r => have l := (call_later (vm' := r.1) (out := r.2) hc).1; exact ⟨l, h.later l, trivial⟩
  | vmAssign r b =>
    simp only [GcmOp.run]
    cases hc : vm.assign r b with
    | error e => exact ⟨.refl _, h, trivial⟩
    | ok vm' => have l := assign_later hc; exact ⟨l, h.later l, trivial⟩

theorem runGcm_ok {role : Role} {key iv : Ref} (ops : List GcmOp) {g : Gcm} {vm : Vm} (h : GcmOk role key iv vm g) :
    Later vm (runGcm role ops g vm).2.1 ∧ GcmOk role key iv (runGcm role ops g vm).2.1 (runGcm role ops g vm).1 ∧
      (runGcm role ops g vm).2.2.length = ops.length ∧
      ∀ p ∈ ops.zip (runGcm role ops g vm).2.2, OutOk role key iv (runGcm role ops g vm).2.1 p.1 p.2 := by
  induction ops generalizing g vm with
  | nil => exact ⟨.refl _, h, rfl, fun _ h => nomatch h⟩
  | cons op ops ih =>
    obtain ⟨h1, h2, h3⟩ := run_ok op h
    obtain ⟨i1, i2, i3, i4⟩ := ih h2
    refine ⟨h1.trans i1, i2, by simp [runGcm, i3], fun p hp => ?_⟩
    simp only [runGcm, List.zip_cons_cons] at hp ⊢
    rcases List.mem_cons.1 hp with rfl | hp
    · exact h3.later i1
    · exact i4 p hp

/-! ## Values -/

theorem take_xorBytes (a b : Bytes) (n : Nat) : (xorBytes a b).take n = xorBytes (a.take n) (b.take n) := by
  simp [xorBytes, List.take_zipWith]

theorem Applied.value {A : AesCircuits} {f : Nat → Option Byte} {role : Role} {vm : Vm} {key iv : Ref} {K IV nonce : Bytes} {len : Nat} {i o : Ref}
    (h : Applied role key iv vm nonce len i o) (hK : vm.value A f key = some K) (hIV : vm.value A f iv = some IV) (hf : Inputs vm f)
    (hpad : role ≠ .leader → ∀ a, i.addr + len ≤ a → a < i.addr + 16 * divCeil16 len → ∃ b, f a = some b) {P : Bytes}
    (hP : vm.value A f i = some P) :
    vm.value A f o = some (xorBytes P ((ctrBlocks A.aes K IV nonce 2 (divCeil16 len)).flatten.take len)) := by
  obtain ⟨bs, inp, out, h1, h2, h3, h4, rfl, rfl, h7, h8⟩ := h
  have hl : 16 * bs.length = len + (16 * bs.length - len) := by rw [h4]; simp only [divCeil16]; omega
  obtain ⟨pad, hpad⟩ : ∃ pad, vm.value A f ⟨inp.addr + len, 16 * bs.length - len⟩ = some pad := by
    have hi : IsInput vm.nodes ⟨inp.addr + len, 16 * bs.length - len⟩ := h7.sub (by rw [h3.inLen]; omega)
    by_cases hr : role = .leader
    · exact ⟨_, (h8 hr).value hi hf⟩
    · have hp := hpad hr
      refine ⟨(List.range (16 * bs.length - len)).map fun i => (f (inp.addr + len + i)).getD 0, hi.value (by simp) fun i hi' => ?_⟩
      simp only at hi'
      obtain ⟨b, hb⟩ := hp (inp.addr + len + i) (by simp only; omega) (by simp only; omega)
      simp only [hb, List.getElem?_map, List.getElem?_range hi', Option.map_some, Option.getD_some]
  have hin : vm.value A f inp = some (P ++ pad) := by
    have := readRef_join hP hpad
    rw [← hl, ← h3.inLen] at this
    exact this
  have ho := h3.value hK hIV hf h1 h2 hin
  have hs := readRef_sub ho (k := 0) (l := len) (by rw [h3.outLen]; omega)
  simp only [Nat.add_zero, List.drop_zero] at hs
  have hPl : P.length = len := readRef_length hP
  rw [take_xorBytes, ← hPl, List.take_left, hPl, h4] at hs
  exact hs

theorem Taken.value {A : AesCircuits} {f : Nat → Option Byte} {vm : Vm} {key iv : Ref} {K IV nonce : Bytes} {len : Nat} {o : Ref}
    (h : Taken key iv vm nonce len o) (hK : vm.value A f key = some K) (hIV : vm.value A f iv = some IV) (hf : Inputs vm f) :
    vm.value A f o = some ((ctrBlocks A.aes K IV nonce 2 (divCeil16 len)).flatten.take len) := by
  obtain ⟨bs, out, h1, h2, h3, h4, rfl⟩ := h
  have ho := h3.value hK hIV hf h1 h2
  have hs := readRef_sub ho (k := 0) (l := len) (by rw [h3.outLen, h4]; simp only [divCeil16]; omega)
  simp only [Nat.add_zero, List.drop_zero] at hs
  rw [h4] at hs
  exact hs

theorem TagOk.value {A : AesCircuits} {f : Nat → Option Byte} {role : Role} {vm : Vm} {key iv : Ref} {K IV nonce : Bytes} {j : CtrBlock × Share}
    (h : TagOk role key iv vm nonce j) (hK : vm.value A f key = some K) (hIV : vm.value A f iv = some IV) (hf : Inputs vm f) :
    vm.value A f j.1.output = some (A.aes K (IV ++ nonce ++ beBytes 4 1)).toList :=
  h.ok.value hK hIV (h.nonce.value h.ok.nonce hf) (h.counter.value h.ok.counter hf)

end Tlsn.Gcm
