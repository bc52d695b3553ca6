import Verif.Gcm.Pair

namespace Tlsn.Gcm

theorem applyLoop_same (input : Ref) (bs : List CtrBlock) (pos : Nat) {v w : Vm} (h : v.nodes = w.nodes) :
    Eqv SameVm (applyLoop input bs pos v) (applyLoop input bs pos w) := by
  induction bs generalizing pos v w with
  | nil => exact ⟨h, rfl⟩
  | cons b bs ih =>
    unfold applyLoop
    split
    · trivial
    · rcases call_same h (.xor 16) [b.output, ⟨input.addr + pos, 16⟩] with ⟨v', w', o, e1, e2, e3⟩ | ⟨e1, e2⟩
      · rw [e1, e2]
        refine (ih (pos + 16) e3).bind ?_
        rintro ⟨x1, x2⟩ ⟨y1, y2⟩ ⟨h1, rfl⟩
        exact ⟨h1, rfl⟩
      · rw [e1, e2]; rfl

theorem flatten_same {v w : Vm} (h : v.nodes = w.nodes) (bs : List Ref) : Eqv SameVm (flattenBlocks v bs) (flattenBlocks w bs) := by
  unfold flattenBlocks
  rcases call_same h (.ident (bs.map (·.len)).sum) bs with ⟨v', w', o, e1, e2, e3⟩ | ⟨e1, e2⟩
  · rw [e1, e2]; exact ⟨e3, rfl⟩
  · rw [e1, e2]; rfl

theorem apply_same (ks : List CtrBlock) {v w : Vm} (h : v.nodes = w.nodes) (i : Ref) : Eqv SameVm (apply ks v i) (apply ks w i) := by
  unfold apply
  split
  · rfl
  · split
    · rfl
    · refine (applyLoop_same i ks 0 h).bind ?_
      rintro ⟨x1, x2⟩ ⟨y1, y2⟩ ⟨h1, rfl⟩
      exact flatten_same h1 _

theorem toVector_same (ks : List CtrBlock) {v w : Vm} (h : v.nodes = w.nodes) (len : Nat) :
    Eqv SameVm (toVector ks v len) (toVector ks w len) := by
  unfold toVector
  split
  · rfl
  · split
    · rfl
    · split
      · rfl
      · refine (flatten_same h _).bind ?_
        rintro ⟨x1, x2⟩ ⟨y1, y2⟩ ⟨h1, rfl⟩
        exact ⟨h1, rfl⟩

theorem padInput_same {role role' : Role} {v w : Vm} (h : v.nodes = w.nodes) (i o : Ref) (p len : Nat) :
    match padInput role v i o p len, padInput role' w i o p len with
    | .ok x, .ok y => SameVm x y
    | .ok x, .error y => x.1.nodes = y.nodes
    | .error x, .ok y => x.nodes = y.1.nodes
    | .error x, .error y => x.nodes = y.nodes := by
  have key : ∀ (role : Role) (v : Vm), match padInput role v i o p len with
      | .ok x => x.1.nodes = v.nodes ∧ x.2 = if p > 0 then (⟨i.addr, i.len - p⟩, o.truncate len) else (i, o)
      | .error x => x.nodes = v.nodes := by
    intro role v
    unfold padInput
    by_cases hp : p > 0
    · rw [if_pos hp, if_pos hp]
      by_cases hr : role = .leader
      · rw [if_pos hr]
        cases ha : v.assign (i.splitOff (i.len - p)).2 (List.replicate p 0) with
        | error e => rfl
        | ok v' => exact ⟨(assign_spec ha).2.1, rfl⟩
      · rw [if_neg hr]; exact ⟨rfl, rfl⟩
    · rw [if_neg hp, if_neg hp]; exact ⟨rfl, rfl⟩
  have h1 := key role v
  have h2 := key role' w
  revert h1 h2
  cases padInput role v i o p len <;> cases padInput role' w i o p len <;> intro h1 h2
  · exact h1.trans (h.trans h2.symm)
  · exact h1.trans (h.trans h2.1.symm)
  · exact h1.1.trans (h.trans h2.symm)
  · exact ⟨h1.1.trans (h.trans h2.1.symm), h1.2.trans h2.2.symm⟩

/-- Both parties have the same result. -/
def BothOk {α : Type} (R : α → α → Prop) : Outcome GcmError α → Outcome GcmError α → Prop
  | .ok a, .ok b => R a b
  | _, _ => True

theorem applyKeystream_pair {gl gf : Gcm} {vl vf : Vm} (h : Pair gl vl gf vf) (nonce : Bytes) (len : Nat) :
    Pair (gl.applyKeystream .leader vl nonce len).1 (gl.applyKeystream .leader vl nonce len).2.1
      (gf.applyKeystream .follower vf nonce len).1 (gf.applyKeystream .follower vf nonce len).2.1 ∧
    BothOk (· = ·) (gl.applyKeystream .leader vl nonce len).2.2 (gf.applyKeystream .follower vf nonce len).2.2 := by
  unfold Gcm.applyKeystream
  rw [← h.input, ← h.keystream]
  by_cases hn : nonce.length ≠ 8
  · rw [if_pos hn, if_pos hn]; exact ⟨h, trivial⟩
  rw [if_neg hn, if_neg hn]
  dsimp only
  by_cases hp : divCeil16 len * 16 > gl.input.len
  · rw [if_pos hp, if_pos hp]; exact ⟨h, trivial⟩
  rw [if_neg hp, if_neg hp]
  cases consume gl.keystream (divCeil16 len * 16) with
  | error e => exact ⟨⟨h.nodes, rfl, rfl, h.j0s, h.key, h.keyShare⟩, trivial⟩
  | ok r =>
    obtain ⟨rest, ks⟩ := r
    dsimp only
    have ha := apply_same ks h.nodes (gl.input.splitOff (gl.input.len - divCeil16 len * 16)).2
    revert ha
    cases apply ks vl (gl.input.splitOff (gl.input.len - divCeil16 len * 16)).2 with
    | err e =>
      cases apply ks vf (gl.input.splitOff (gl.input.len - divCeil16 len * 16)).2 with
      | err e' => intro _; exact ⟨⟨h.nodes, rfl, rfl, h.j0s, h.key, h.keyShare⟩, trivial⟩
      | panic => intro ha; exact ha.elim
      | ok y => intro ha; exact ha.elim
    | panic =>
      cases apply ks vf (gl.input.splitOff (gl.input.len - divCeil16 len * 16)).2 with
      | err e' => intro ha; exact ha.elim
      | panic => intro _; exact ⟨⟨h.nodes, rfl, rfl, h.j0s, h.key, h.keyShare⟩, trivial⟩
      | ok y => intro ha; exact ha.elim
    | ok x =>
      cases apply ks vf (gl.input.splitOff (gl.input.len - divCeil16 len * 16)).2 with
      | err e' => intro ha; exact ha.elim
      | panic => intro ha; exact ha.elim
      | ok y =>
        obtain ⟨x1, x2⟩ := x
        obtain ⟨y1, y2⟩ := y
        rintro ⟨hn1, rfl⟩
        dsimp only at hn1 ⊢
        have l1 := (assignKs_later nonce ks 2 x1).2.1
        have l2 := (assignKs_later nonce ks 2 y1).2.1
        revert l1 l2
        rcases assignKs nonce ks 2 x1 with ⟨x3, bx⟩
        rcases assignKs nonce ks 2 y1 with ⟨y3, b'⟩
        intro l1 l2
        have hn3 : x3.nodes = y3.nodes := l1.trans (hn1.trans l2.symm)
        have hpad := padInput_same (role := .leader) (role' := .follower) hn3 (gl.input.splitOff (gl.input.len - divCeil16 len * 16)).2 x2
          (divCeil16 len * 16 - len) len
        have hkl : ∀ (role : Role) (v : Vm), match padInput role v (gl.input.splitOff (gl.input.len - divCeil16 len * 16)).2 x2
            (divCeil16 len * 16 - len) len with | .ok x => x.1.nodes = v.nodes | .error x => x.nodes = v.nodes := by
          intro role v
          have := padInput_same (role := role) (role' := .follower) (v := v) (w := v) rfl (gl.input.splitOff (gl.input.len - divCeil16 len * 16)).2 x2
            (divCeil16 len * 16 - len) len
          have hfo : ∃ r, padInput .follower v (gl.input.splitOff (gl.input.len - divCeil16 len * 16)).2 x2
            (divCeil16 len * 16 - len) len = .ok (v, r) := by
            unfold padInput
            split
            · exact ⟨_, rfl⟩
            · exact ⟨_, rfl⟩
          obtain ⟨r, hr⟩ := hfo
          rw [hr] at this
          revert this
          cases padInput role v (gl.input.splitOff (gl.input.len - divCeil16 len * 16)).2 x2 (divCeil16 len * 16 - len) len with
          | ok x => exact fun h => h.1
          | error x => exact id
        have hk1 := hkl .leader x3
        have hk2 := hkl .follower y3
        revert hpad hk1 hk2
        cases bx <;> cases b' <;> dsimp only <;>
          rcases padInput .leader x3 (gl.input.splitOff (gl.input.len - divCeil16 len * 16)).2 x2 (divCeil16 len * 16 - len) len with e1 | r1 <;>
          rcases padInput .follower y3 (gl.input.splitOff (gl.input.len - divCeil16 len * 16)).2 x2 (divCeil16 len * 16 - len) len with e2 | r2 <;>
          dsimp only <;> intro hpad hk1 hk2 <;>
          refine ⟨⟨?_, rfl, rfl, h.j0s, h.key, h.keyShare⟩, ?_⟩ <;>
          first
            | trivial
            | exact hpad
            | exact hn3
            | exact hpad.1
            | exact hpad.2
            | exact hn3.trans hk2.symm
            | exact hk1.trans hn3

theorem takeKeystream_pair {gl gf : Gcm} {vl vf : Vm} (h : Pair gl vl gf vf) (nonce : Bytes) (len : Nat)
    (hb : (∃ a, (gl.takeKeystream vl nonce len).2.2 = .ok a) ↔ ∃ a, (gf.takeKeystream vf nonce len).2.2 = .ok a) :
    Pair (gl.takeKeystream vl nonce len).1 (gl.takeKeystream vl nonce len).2.1
      (gf.takeKeystream vf nonce len).1 (gf.takeKeystream vf nonce len).2.1 ∧
    BothOk (· = ·) (gl.takeKeystream vl nonce len).2.2 (gf.takeKeystream vf nonce len).2.2 := by
  revert hb
  unfold Gcm.takeKeystream
  rw [← h.input, ← h.keystream]
  by_cases hn : nonce.length ≠ 8
  · rw [if_pos hn, if_pos hn]; exact fun _ => ⟨h, trivial⟩
  rw [if_neg hn, if_neg hn]
  by_cases hp : divCeil16 len * 16 > gl.input.len
  · rw [if_pos hp, if_pos hp]; exact fun _ => ⟨h, trivial⟩
  rw [if_neg hp, if_neg hp]
  cases consume gl.keystream len with
  | error e => exact fun _ => ⟨h, trivial⟩
  | ok r =>
    obtain ⟨rest, ks⟩ := r
    dsimp only
    have l1 := (assignKs_later nonce ks 2 vl).2.1
    have l2 := (assignKs_later nonce ks 2 vf).2.1
    revert l1 l2
    rcases assignKs nonce ks 2 vl with ⟨x3, bx⟩
    rcases assignKs nonce ks 2 vf with ⟨y3, b'⟩
    intro l1 l2
    have hn3 : x3.nodes = y3.nodes := l1.trans (h.nodes.trans l2.symm)
    have ha := toVector_same ks hn3 len
    revert ha
    cases bx <;> cases b' <;> dsimp only <;>
      rcases toVector ks x3 len with ⟨r1a, r1b⟩ | e1 | _ <;>
      rcases toVector ks y3 len with ⟨r2a, r2b⟩ | e2 | _ <;>
      intro ha hb <;>
      first
        | exact ha.elim
        | exact ⟨⟨hn3, rfl, rfl, h.j0s, h.key, h.keyShare⟩, trivial⟩
        | exact ⟨⟨ha.1, rfl, rfl, h.j0s, h.key, h.keyShare⟩, ha.2⟩
        | (exfalso; simp at hb; done)

/-- What is left after the blocks of tags were taken, and the blocks. -/
theorem takeJ0s_shape (ns : List Bytes) (g : Gcm) (vm : Vm) :
    ∃ k ≤ g.j0s.length, (Gcm.takeJ0s ns g vm).1 = { g with j0s := g.j0s.take k } ∧ (Gcm.takeJ0s ns g vm).2.1.nodes = vm.nodes ∧
      ∀ js, (Gcm.takeJ0s ns g vm).2.2 = .ok js → js = (g.j0s.drop k).reverse := by
  induction ns generalizing g vm with
  | nil => exact ⟨g.j0s.length, Nat.le_refl _, by simp [Gcm.takeJ0s], rfl, fun js e => by cases e; simp⟩
  | cons n ns ih =>
    have h1 : (∃ e, (g.takeJ0 vm n).2.2 = .err e ∨ (g.takeJ0 vm n).2.2 = .panic) ∧
        (∃ k ≤ g.j0s.length, (g.takeJ0 vm n).1 = { g with j0s := g.j0s.take k }) ∧ (g.takeJ0 vm n).2.1.nodes = vm.nodes ∨
        ∃ j vm', g.takeJ0 vm n = ({ g with j0s := g.j0s.dropLast }, vm', .ok j) ∧ vm'.nodes = vm.nodes ∧ g.j0s.getLast? = some j := by
      unfold Gcm.takeJ0
      split
      · exact .inl ⟨⟨_, .inl rfl⟩, ⟨g.j0s.length, Nat.le_refl _, by simp⟩, rfl⟩
      · split
        · exact .inl ⟨⟨.cipher, .inr rfl⟩, ⟨g.j0s.length, Nat.le_refl _, by simp⟩, rfl⟩
        · rename_i j hl
          dsimp only
          split
          · exact .inl ⟨⟨_, .inl rfl⟩, ⟨g.j0s.length - 1, Nat.sub_le _ _, by simp [List.dropLast_eq_take]⟩, rfl⟩
          · rename_i vm1 a1
            split
            · exact .inl ⟨⟨_, .inl rfl⟩, ⟨g.j0s.length - 1, Nat.sub_le _ _, by simp [List.dropLast_eq_take]⟩, (assign_spec a1).2.1⟩
            · rename_i vm2 a2
              exact .inr ⟨j, vm2, rfl, (assign_spec a2).2.1.trans (assign_spec a1).2.1, hl⟩
    rcases h1 with ⟨⟨e, he⟩, ⟨k, hk, hg⟩, hn⟩ | ⟨j, vm', e, hn, hl⟩
    · refine ⟨k, hk, ?_⟩
      unfold Gcm.takeJ0s
      revert hn hg he
      rcases g.takeJ0 vm n with ⟨g1, vm1, x | x | _⟩
      · intro he; simp at he
      · exact fun _ hn hg => ⟨hg, hn, fun _ h => nomatch h⟩
      · exact fun _ hn hg => ⟨hg, hn, fun _ h => nomatch h⟩
    · obtain ⟨k, hk, i1, i2, i3⟩ := ih { g with j0s := g.j0s.dropLast } vm'
      simp only [List.length_dropLast] at hk
      have hs := getLast?_split hl
      refine ⟨k, by omega, ?_⟩
      have ht : g.j0s.dropLast.take k = g.j0s.take k := by
        rw [List.dropLast_eq_take, List.take_take, Nat.min_eq_left (by omega)]
      have hd : (g.j0s.drop k).reverse = j :: (g.j0s.dropLast.drop k).reverse := by
        conv => lhs; rw [hs, List.drop_append_of_le_length (by simp; omega)]
        simp
      unfold Gcm.takeJ0s
      rw [e]
      dsimp only at i1 i2 i3 ⊢
      rw [ht] at i1
      revert i1 i2 i3
      rcases Gcm.takeJ0s ns { g with j0s := g.j0s.dropLast } vm' with ⟨g2, vm2, js | e2 | _⟩ <;> dsimp only <;> intro i1 i2 i3
      · exact ⟨i1, i2.trans hn, fun js' e => by cases e; rw [i3 js rfl, hd]⟩
      · exact ⟨i1, i2.trans hn, fun _ h => nomatch h⟩
      · exact ⟨i1, i2.trans hn, fun _ h => nomatch h⟩

theorem tags_pair {gl gf : Gcm} {vl vf : Vm} (h : Pair gl vl gf vf) (ns : List Bytes)
    (hb : (gl.tags vl ns).1.j0s.length = (gf.tags vf ns).1.j0s.length) :
    Pair (gl.tags vl ns).1 (gl.tags vl ns).2.1 (gf.tags vf ns).1 (gf.tags vf ns).2.1 ∧
    BothOk SameJ0s (gl.tags vl ns).2.2 (gf.tags vf ns).2.2 := by
  have hl : gl.j0s.length = gf.j0s.length := by
    have := congrArg List.length h.j0s
    simpa [SameJ0s] using this
  revert hb
  unfold Gcm.tags
  rw [← hl]
  split
  · exact fun _ => ⟨h, trivial⟩
  · intro hb
    obtain ⟨k, hk, a1, a2, a3⟩ := takeJ0s_shape ns gl vl
    obtain ⟨k', hk', b1, b2, b3⟩ := takeJ0s_shape ns gf vf
    rw [a1, b1] at hb ⊢
    simp only [List.length_take] at hb
    have hkk : k = k' := by omega
    subst hkk
    refine ⟨⟨a2.trans (h.nodes.trans b2.symm), h.input, h.keystream, ?_, h.key, h.keyShare⟩, ?_⟩
    · have := congrArg (List.take k) h.j0s
      simpa [SameJ0s, List.map_take] using this
    · revert a3 b3
      rcases (Gcm.takeJ0s ns gl vl).2.2 with x | x | _ <;> rcases (Gcm.takeJ0s ns gf vf).2.2 with y | y | _ <;> intro a3 b3 <;>
        first
          | trivial
          | (have := congrArg (fun l => (List.drop k l).reverse) h.j0s
             rw [a3 x rfl, b3 y rfl]
             simpa [BothOk, SameJ0s, List.map_drop] using this)

/-! ## Histories -/

/-- Operations that both parties carry out together; an assignment is an operation of each party alone. -/
def SameOp : GcmOp → GcmOp → Prop
  | .apply n len, .apply n' len' => n = n' ∧ len = len'
  | .take n len, .take n' len' => n = n' ∧ len = len'
  | .tags ns, .tags ns' => ns = ns'
  | .vmAlloc n _, .vmAlloc n' _ => n = n'
  | .vmCall c args, .vmCall c' args' => c = c' ∧ args = args'
  | .vmAssign .., .vmAssign .. => True
  | _, _ => False

/-- Results that differ in the pads only. -/
def SameOut : GcmOut → GcmOut → Prop
  | .applied i o, .applied i' o' => i = i' ∧ o = o'
  | .taken o, .taken o' => o = o'
  | .tags js, .tags js' => SameJ0s js js'
  | .none, .none => True
  | _, _ => False

theorem Agree.same {α β : Type} {x : Outcome GcmError α} {y : Outcome GcmError β} {r : Except RlError Unit} (h : Agree x r) (h' : Agree y r) :
    (∃ a b, x = .ok a ∧ y = .ok b) ∨ ∃ e e', x = .err e ∧ y = .err e' := by
  rcases x with x | x | _ <;> rcases y with y | y | _ <;> rcases r with r | r <;> first
    | exact .inl ⟨_, _, rfl, rfl⟩
    | exact .inr ⟨_, _, rfl, rfl⟩
    | exact h.elim
    | exact h'.elim
    | (cases x <;> cases r <;> exact h.elim)
    | (cases y <;> cases r <;> exact h'.elim)

theorem run_pair {key iv : Ref} {name name' : Nat → CtrBlock} {gl gf : Gcm} {vl vf : Vm} {a : Aead} (h : Pair gl vl gf vf)
    (hl : Inv .leader key iv name vl gl a) (hf : Inv .follower key iv name' vf gf a) {op op' : GcmOp} (hs : SameOp op op')
    (hc : CarefulOp gl op) (hc' : CarefulOp gf op') :
    Pair (op.run .leader gl vl).1 (op.run .leader gl vl).2.1 (op'.run .follower gf vf).1 (op'.run .follower gf vf).2.1 ∧
      SameOut (op.run .leader gl vl).2.2 (op'.run .follower gf vf).2.2 ∧ (absRun a op).1 = (absRun a op').1 := by
  cases op <;> cases op' <;> try exact hs.elim
  case apply.apply n len n' len' =>
    obtain ⟨rfl, rfl⟩ := hs
    obtain ⟨p1, p2⟩ := applyKeystream_pair h n len
    have g := (apply_refines hl n len hc).2.same (apply_refines hf n len hc').2
    rw [← and_assoc]
    refine ⟨?_, rfl⟩
    simp only [GcmOp.run]
    revert p1 p2 g
    rcases gl.applyKeystream .leader vl n len with ⟨x1, x2, x3⟩
    rcases gf.applyKeystream .follower vf n len with ⟨y1, y2, y3⟩
    rintro p1 p2 (⟨⟨a1, a2⟩, ⟨b1, b2⟩, rfl, rfl⟩ | ⟨e, e', rfl, rfl⟩)
    · simp only [BothOk, Prod.mk.injEq] at p2
      exact ⟨p1, p2⟩
    · exact ⟨p1, trivial⟩
  case take.take n len n' len' =>
    obtain ⟨rfl, rfl⟩ := hs
    have g := (take_refines hl n len hc).2.same (take_refines hf n len hc').2
    obtain ⟨p1, p2⟩ := takeKeystream_pair h n len (by
      rcases g with ⟨x, y, e1, e2⟩ | ⟨x, y, e1, e2⟩ <;> rw [e1, e2] <;> simp)
    rw [← and_assoc]
    refine ⟨?_, rfl⟩
    simp only [GcmOp.run]
    revert p1 p2 g
    rcases gl.takeKeystream vl n len with ⟨x1, x2, x3⟩
    rcases gf.takeKeystream vf n len with ⟨y1, y2, y3⟩
    rintro (⟨a1, b1, rfl, rfl⟩ | ⟨e, e', rfl, rfl⟩) p1 p2
    · exact ⟨p1, p2⟩
    · exact ⟨p1, trivial⟩
  case tags.tags ns ns' =>
    obtain rfl : ns = ns' := hs
    obtain ⟨i1, j1⟩ := tags_refines ns hl
    obtain ⟨i2, j2⟩ := tags_refines ns hf
    have g := j1.same j2
    obtain ⟨p1, p2⟩ := tags_pair h ns (by
      have e1 := congrArg List.length i1.abs.j0s
      have e2 := congrArg List.length i2.abs.j0s
      simp only [List.length_map] at e1 e2
      exact e1.trans e2.symm)
    rw [← and_assoc]
    refine ⟨?_, rfl⟩
    simp only [GcmOp.run]
    revert p1 p2 g
    rcases gl.tags vl ns with ⟨x1, x2, x3⟩
    rcases gf.tags vf ns with ⟨y1, y2, y3⟩
    rintro (⟨a1, b1, rfl, rfl⟩ | ⟨e, e', rfl, rfl⟩) p1 p2
    · exact ⟨p1, p2⟩
    · exact ⟨p1, trivial⟩
  case vmAlloc.vmAlloc n v n' v' =>
    obtain rfl : n = n' := hs
    exact ⟨⟨by simp [GcmOp.run, Vm.alloc, Vm.mark, h.nodes], h.input, h.keystream, h.j0s, h.key, h.keyShare⟩, trivial, rfl⟩
  case vmCall.vmCall c args c' args' =>
    obtain ⟨rfl, rfl⟩ := hs
    rw [← and_assoc]
    refine ⟨?_, rfl⟩
    simp only [GcmOp.run]
    rcases call_same h.nodes c args with ⟨v', w', o, e1, e2, e3⟩ | ⟨e1, e2⟩
    · rw [e1, e2]; exact ⟨⟨e3, h.input, h.keystream, h.j0s, h.key, h.keyShare⟩, trivial⟩
    · rw [e1, e2]; exact ⟨h, trivial⟩
  case vmAssign.vmAssign r b r' b' =>
    simp only [GcmOp.run]
    cases e1 : vl.assign r b <;> cases e2 : vf.assign r' b'
    · exact ⟨h, trivial, rfl⟩
    · exact ⟨⟨h.nodes.trans (assign_spec e2).2.1.symm, h.input, h.keystream, h.j0s, h.key, h.keyShare⟩, trivial, rfl⟩
    · exact ⟨⟨(assign_spec e1).2.1.trans h.nodes, h.input, h.keystream, h.j0s, h.key, h.keyShare⟩, trivial, rfl⟩
    · exact ⟨⟨(assign_spec e1).2.1.trans (h.nodes.trans (assign_spec e2).2.1.symm), h.input, h.keystream, h.j0s, h.key, h.keyShare⟩,
        trivial, rfl⟩

/-- The operations of both parties, in step. -/
def SameOps : List GcmOp → List GcmOp → Prop
  | [], [] => True
  | a :: as, b :: bs => SameOp a b ∧ SameOps as bs
  | _, _ => False

/-- The results of both parties, in step. -/
def SameOuts : List GcmOut → List GcmOut → Prop
  | [], [] => True
  | a :: as, b :: bs => SameOut a b ∧ SameOuts as bs
  | _, _ => False

theorem runGcm_pair {key iv : Ref} {name name' : Nat → CtrBlock} (ops : List GcmOp) {ops' : List GcmOp} {gl gf : Gcm} {vl vf : Vm} {a : Aead}
    (h : Pair gl vl gf vf)
    (hl : Inv .leader key iv name vl gl a) (hf : Inv .follower key iv name' vf gf a) (hs : SameOps ops ops')
    (hc : Careful .leader ops gl vl) (hc' : Careful .follower ops' gf vf) :
    Pair (runGcm .leader ops gl vl).1 (runGcm .leader ops gl vl).2.1 (runGcm .follower ops' gf vf).1 (runGcm .follower ops' gf vf).2.1 ∧
      SameOuts (runGcm .leader ops gl vl).2.2 (runGcm .follower ops' gf vf).2.2 := by
  induction ops generalizing ops' gl gf vl vf a with
  | nil =>
    cases ops' with
    | nil => exact ⟨h, trivial⟩
    | cons b bs => exact hs.elim
  | cons op ops ih =>
    cases ops' with
    | nil => exact hs.elim
    | cons b bs =>
      obtain ⟨p1, p2, p3⟩ := run_pair h hl hf hs.1 hc.1 hc'.1
      obtain ⟨i1, i2⟩ := ih p1 (run_refines op hl hc.1).1 (p3 ▸ (run_refines b hf hc'.1).1) hs.2 hc.2 hc'.2
      exact ⟨i1, p2, i2⟩

end Tlsn.Gcm
