import Verif.Auth.SessionLemmas

/-! # The prover and the verifier run their VMs in step -/

namespace Tlsn

namespace InStep
variable {F : Nat → Byte} {p v : ZkVm}

theorem alloc (h : InStep F p v) (n : Nat) :
    InStep F (p.alloc n).1 (v.alloc n).1 ∧ (p.alloc n).2 = (v.alloc n).2 := by
  refine ⟨⟨h.fill, by simp [ZkVm.alloc, h.mem], by simp [ZkVm.alloc, h.ops], by simp [ZkVm.alloc, h.marks]⟩, ?_⟩
  simp [ZkVm.alloc, h.mem]

theorem mark (h : InStep F p v) (x : VmVec) (vis : Vis) : InStep F (p.mark x vis) (v.mark x vis.dual) :=
  ⟨h.fill, h.mem, h.ops, by simp [ZkVm.mark, h.marks]⟩

theorem decode (h : InStep F p v) (x : VmVec) : InStep F (p.decode x).1 (v.decode x).1 :=
  ⟨h.fill, h.mem, by simp [ZkVm.decode, h.ops], h.marks⟩

theorem call (h : InStep F p v) (op : VmOp) {a b : Bytes} (hl : a.length = b.length) :
    InStep F (p.call op a).1 (v.call op b).1 ∧ (p.call op a).2 = (v.call op b).2 := by
  refine ⟨⟨h.fill, by simp [ZkVm.call, h.mem, hl], by simp [ZkVm.call, h.ops], h.marks⟩, ?_⟩
  simp [ZkVm.call, h.mem, hl]

theorem read_length (h : InStep F p v) (x : VmVec) : (p.read x).length = (v.read x).length := by
  simp [ZkVm.read, h.mem]

theorem reads_length (h : InStep F p v) (xs : List VmVec) :
    (xs.flatMap p.read).length = (xs.flatMap v.read).length := by
  induction xs with
  | nil => rfl
  | cons x t ih => simp only [List.flatMap_cons, List.length_append, ih, h.read_length x]

theorem markAll (h : InStep F p v) (vis : Vis) (m : RangeMap) :
    InStep F (Tlsn.markAll p vis m) (Tlsn.markAll v vis.dual m) := by
  unfold Tlsn.markAll
  induction m generalizing p v with
  | nil => exact h
  | cons e t ih => exact ih (h.mark e.2 vis)

theorem decodeAll (h : InStep F p v) (xs : List VmVec) :
    InStep F (Tlsn.decodeAll p xs).1 (Tlsn.decodeAll v xs).1 := by
  induction xs generalizing p v with
  | nil => exact h
  | cons x t ih => exact ih (h.decode x)

theorem of_same {p' v' : ZkVm} (h : InStep F p v) (h1 : p'.mem.length = p.mem.length) (h2 : p'.ops = p.ops)
    (h3 : p'.marks = p.marks) (g1 : v'.mem.length = v.mem.length) (g2 : v'.ops = v.ops)
    (g3 : v'.marks = v.marks) (g4 : v'.fill = v.fill) : InStep F p' v' :=
  ⟨by rw [g4, h.fill], by rw [h1, g1, h.mem], by rw [h2, g2, h.ops], by rw [h3, g3, h.marks]⟩

end InStep

theorem Agree.grow {p v p' v' : ZkVm} (h : Agree p v) (hp : Grew p p') (hv : Grew v v')
    (hl : p.mem.length = v.mem.length)
    (hm : ∀ m ∈ p'.marks, m.2 = .pub → m ∈ p.marks ∨ ∃ b, Holds p' m.1 b ∧ Holds v' m.1 b)
    (hd : ∀ x, VmOp.decode x ∈ p'.ops → VmOp.decode x ∈ p.ops ∨ ∃ b, Holds p' x b ∧ Holds v' x b) : Agree p' v' := by
  have key : ∀ x : VmVec, x.addr + x.len ≤ p.mem.length ∧ p.read x = v.read x →
      x.addr + x.len ≤ p'.mem.length ∧ p'.read x = v'.read x := by
    rintro x ⟨h1, h2⟩
    have a := Holds.mono hp (v := x) (b := p.read x) ⟨h1, rfl⟩
    have b := Holds.mono hv (v := x) (b := v.read x) ⟨by omega, rfl⟩
    exact ⟨a.1, by rw [a.2, b.2, h2]⟩
  have key2 : ∀ x : VmVec, (∃ b, Holds p' x b ∧ Holds v' x b) →
      x.addr + x.len ≤ p'.mem.length ∧ p'.read x = v'.read x := by
    rintro x ⟨b, h1, h2⟩; exact ⟨h1.1, by rw [h1.2, h2.2]⟩
  constructor
  · intro m hm' hpub
    rcases hm m hm' hpub with h' | h'
    · exact key _ (h.pubs m h' hpub)
    · exact key2 _ h'
  · intro x hx
    rcases hd x hx with h' | h'
    · exact key _ (h.decs x h')
    · exact key2 _ h'

/-- Two VMs in step that agree. -/
structure Sync (F : Nat → Byte) (p v : ZkVm) : Prop where
  step : InStep F p v
  agree : Agree p v

theorem Sync.call {F : Nat → Byte} {p v : ZkVm} (h : Sync F p v) {op : VmOp} (ho : ∀ x, op ≠ .decode x) {a b : Bytes}
    (hl : a.length = b.length) : Sync F (p.call op a).1 (v.call op b).1 ∧ (p.call op a).2 = (v.call op b).2 := by
  obtain ⟨h1, h2⟩ := h.step.call op hl
  refine ⟨⟨h1, h.agree.grow ⟨_, rfl⟩ ⟨_, rfl⟩ h.step.mem (fun m hm _ => .inl hm) fun x hx => ?_⟩, h2⟩
  simp only [ZkVm.call, List.mem_append, List.mem_singleton] at hx
  rcases hx with hx | hx
  · exact .inl hx
  · exact absurd hx.symm (ho x)

variable {F : Nat → Byte}

/-- Two computations that agree on success and failure, with related results. -/
inductive StepRel {ε α β : Type} (R : α → β → Prop) : Outcome ε α → Outcome ε β → Prop
  | ok {a : α} {b : β} (h : R a b) : StepRel R (.ok a) (.ok b)
  | err (e : ε) : StepRel R (.err e) (.err e)
  | panic : StepRel R .panic .panic

theorem StepRel.bind {ε α β γ δ : Type} {R : α → β → Prop} {S : γ → δ → Prop} {x : Outcome ε α} {y : Outcome ε β}
    {f : α → Outcome ε γ} {g : β → Outcome ε δ} (h : StepRel R x y)
    (hf : ∀ a b, R a b → StepRel S (f a) (g b)) : StepRel S (x >>= f) (y >>= g) := by
  cases h with
  | ok h => exact hf _ _ h
  | err e => exact .err e
  | panic => exact .panic

theorem StepRel.mapErr {ε δ α β : Type} {R : α → β → Prop} {x : Outcome ε α} {y : Outcome ε β} (f : ε → δ)
    (h : StepRel R x y) : StepRel R (Tlsn.mapErr f x) (Tlsn.mapErr f y) := by
  cases h with
  | ok h => exact .ok h
  | err e => exact .err _
  | panic => exact .panic

/-- Results in step. -/
def StepRes {α : Type} (F : Nat → Byte) (a b : ZkVm × α) : Prop := Sync F a.1 b.1 ∧ a.2 = b.2

/-- Two computations in step: they agree on success and failure, and on what they return. -/
abbrev StepOut {ε α : Type} (F : Nat → Byte) (x y : Outcome ε (ZkVm × α)) : Prop := StepRel (StepRes F) x y

theorem allocNonce_step {p v : ZkVm} (h : Sync F p v) (nonce : Bytes) :
    StepOut F (allocNonce p nonce) (allocNonce v nonce) := by
  rw [allocNonce_eq, allocNonce_eq]
  have hs := h.step
  split
  · rename_i h8
    refine .ok ⟨⟨⟨hs.fill, by simp [hs.mem], by simp [hs.ops], by simp [hs.marks, hs.mem, Vis.dual]⟩, ?_⟩, by rw [hs.mem]⟩
    refine h.agree.grow ⟨_, rfl⟩ ⟨_, rfl⟩ hs.mem (fun m hm _ => ?_) fun x hx => .inl (by simpa using hx)
    simp only [List.mem_append, List.mem_singleton] at hm
    rcases hm with hm | rfl
    · exact .inl hm
    · exact .inr ⟨nonce, read_fresh (m := p.mem) (b := []) (by simp) rfl (by simp [h8]),
        read_fresh (m := v.mem) (b := []) (by simp) hs.mem (by simp [h8])⟩
  · exact .err _

theorem allocBlock_step (aes : AesFn) {p v : ZkVm} (h : Sync F p v) (key iv nonce : VmVec) (n : Nat) :
    StepOut F (allocBlock aes p key iv nonce n) (allocBlock aes v key iv nonce n) := by
  simp only [allocBlock]
  rw [assignE_fresh, assignE_fresh, if_pos (by simp), if_pos (by simp)]
  simp only [Outcome.bind_ok, Outcome.pure_eq, ZkVm.call]
  have hs := h.step
  refine .ok ⟨⟨⟨hs.fill, by simp [hs.mem], by simp [hs.ops, ZkVm.alloc, hs.mem],
    by simp [hs.marks, hs.mem, Vis.dual]⟩, ?_⟩, by simp [hs.mem]⟩
  refine h.agree.grow ⟨_, by simp only [List.append_assoc]; rfl⟩ ⟨_, by simp only [List.append_assoc]; rfl⟩ hs.mem
    (fun m hm _ => ?_) fun x hx => .inl (by simpa using hx)
  simp only [List.mem_append, List.mem_singleton] at hm
  rcases hm with hm | rfl
  · exact .inl hm
  · exact .inr ⟨beBytes 4 (2 + n), read_fresh (m := p.mem) (by simp only [List.append_assoc]; rfl) rfl (by simp),
      read_fresh (m := v.mem) (by simp only [List.append_assoc]; rfl) hs.mem (by simp)⟩

theorem nonceFor_step {p v : ZkVm} (h : Sync F p v) (nonce : Bytes) (o : Option VmVec) :
    StepOut F (nonceFor p nonce o) (nonceFor v nonce o) := by
  cases o with
  | none => exact allocNonce_step h nonce
  | some x => exact .ok ⟨h, rfl⟩

theorem blockFor_step (aes : AesFn) {p v : ZkVm} (h : Sync F p v) (key iv nonce : VmVec) (n : Nat)
    (cur : Option (Nat × VmVec)) :
    StepOut F (blockFor aes p key iv nonce n cur) (blockFor aes v key iv nonce n cur) := by
  unfold blockFor
  split
  · exact .ok ⟨h, rfl⟩
  · have := allocBlock_step aes h key iv nonce n
    generalize allocBlock aes p key iv nonce n = x at *
    generalize allocBlock aes v key iv nonce n = y at *
    cases this with
    | ok h =>
      rename_i a b
      obtain ⟨a1, a2⟩ := a
      obtain ⟨b1, b2⟩ := b
      obtain ⟨h1, h2⟩ := h
      exact .ok ⟨h1, by simp only at h2; rw [h2]⟩
    | err e => exact .err e
    | panic => exact .panic

/-- States of the keystream loop in step. -/
def StepKs (F : Nat → Byte) (a b : KsState) : Prop := Sync F a.vm b.vm ∧ a.work = b.work ∧ a.out = b.out

theorem recordLoop_step (aes : AesFn) (key iv : VmVec) (rec : RecordParams) (pos fuel : Nat) (a b : KsState)
    (h : StepKs F a b) (nonce : Option VmVec) (cur : Option (Nat × VmVec)) :
    StepRel (fun x y => StepKs F x.1 y.1 ∧ x.2 = y.2) (recordLoop aes key iv rec pos fuel a nonce cur)
      (recordLoop aes key iv rec pos fuel b nonce cur) := by
  induction fuel generalizing a b nonce cur with
  | zero => exact .panic
  | succ fuel ih =>
    obtain ⟨h1, h2, h3⟩ := h
    simp only [recordLoop, ← h2]
    cases hw : a.work with
    | nil => exact .ok ⟨⟨h1, h2, h3⟩, rfl⟩
    | cons r rest =>
      obtain ⟨lo, hi⟩ := r
      simp only
      by_cases hge : lo ≥ pos + rec.len
      · rw [if_pos hge, if_pos hge]; exact .ok ⟨⟨h1, h2, h3⟩, rfl⟩
      · rw [if_neg hge, if_neg hge]
        have hn := nonceFor_step h1 rec.nonce nonce
        generalize nonceFor a.vm rec.nonce nonce = x at *
        generalize nonceFor b.vm rec.nonce nonce = y at *
        cases hn with
        | err e => exact .err e
        | panic => exact .panic
        | ok hn =>
          rename_i x y
          obtain ⟨pv, xv⟩ := x
          obtain ⟨vv, yv⟩ := y
          obtain ⟨hn1, hn2⟩ := hn
          simp only at hn1 hn2
          subst hn2
          have hb := blockFor_step aes hn1 key iv xv ((lo - pos) / 16) cur
          simp only
          generalize blockFor aes pv key iv xv ((lo - pos) / 16) cur = x at *
          generalize blockFor aes vv key iv xv ((lo - pos) / 16) cur = y at *
          cases hb with
          | err e => exact .err e
          | panic => exact .panic
          | ok hb =>
            rename_i x y
            obtain ⟨pv2, blk, c⟩ := x
            obtain ⟨vv2, blk', c'⟩ := y
            obtain ⟨hb1, hb2⟩ := hb
            simp only [Prod.mk.injEq] at hb1 hb2
            obtain ⟨rfl, rfl⟩ := hb2
            simp only
            cases blk.get ((lo - pos) % 16)
              ((lo - pos) % 16 + min (min hi (pos + rec.len) - lo) (16 - (lo - pos) % 16)) with
            | none => exact .panic
            | some piece =>
              rw [← h3]
              exact ih _ _ (by exact ⟨hb1, rfl, rfl⟩) _ _

theorem keystreamLoop_step (aes : AesFn) (key iv : VmVec) (recs : List RecordParams) (pos : Nat) (a b : KsState)
    (h : StepKs F a b) :
    StepRel (StepKs F) (keystreamLoop aes key iv pos recs a) (keystreamLoop aes key iv pos recs b) := by
  induction recs generalizing pos a b with
  | nil => exact .err _
  | cons r t ih =>
    simp only [keystreamLoop]
    have hr := recordLoop_step aes key iv r pos (ksFuel a.work) a b h none none
    rw [← h.2.1]
    generalize recordLoop aes key iv r pos (ksFuel a.work) a none none = x at *
    generalize recordLoop aes key iv r pos (ksFuel a.work) b none none = y at *
    cases hr with
    | err e => exact .err e
    | panic => exact .panic
    | ok hr =>
      rename_i x y
      obtain ⟨a', x⟩ := x
      obtain ⟨b', y⟩ := y
      simp only at hr
      obtain ⟨hr1, rfl⟩ := hr
      cases x with
      | true => exact .ok hr1
      | false => exact ih _ _ _ hr1

theorem xorCall_step {p v : ZkVm} (h : Sync F p v) (n : Nat) (args : List VmVec) :
    (xorCall p n args = none ∧ xorCall v n args = none) ∨
    ∃ p' v' a, xorCall p n args = some (p', a) ∧ xorCall v n args = some (v', a) ∧ Sync F p' v' := by
  have hs := h.step
  simp only [xorCall, ← hs.reads_length args]
  split
  · rename_i hl
    have hl' : (args.flatMap v.read).length = n + n := by rw [← hs.reads_length, hl]
    right
    obtain ⟨h1, h2⟩ := h.call (op := .xor args) (fun _ => by simp) (a := xorBytes ((args.flatMap p.read).take n) ((args.flatMap p.read).drop n))
      (b := xorBytes ((args.flatMap v.read).take n) ((args.flatMap v.read).drop n)) (by
        simp only [xorBytes, List.length_zipWith, List.length_take, List.length_drop]
        omega)
    refine ⟨_, _, _, rfl, ?_, h1⟩
    simp only [ZkVm.call, VmVec.mk.injEq, Option.some.injEq, Prod.mk.injEq, true_and] at h2 ⊢
    exact ⟨h2.1.symm, h2.2.symm⟩
  · exact .inl ⟨rfl, rfl⟩

theorem allocCiphertext_step (aes : AesFn) {p v : ZkVm} (h : Sync F p v) (key iv : VmVec) (m : RangeMap)
    (recs : List RecordParams) :
    StepOut F (allocCiphertext aes p key iv m recs) (allocCiphertext aes v key iv m recs) := by
  unfold allocCiphertext
  split
  · exact .ok ⟨h, rfl⟩
  · simp only [allocKeystream]
    have hk := keystreamLoop_step aes key iv recs 0 ⟨p, (RangeSet.ofRanges m.keys).ranges, []⟩
      ⟨v, (RangeSet.ofRanges m.keys).ranges, []⟩ ⟨h, rfl, rfl⟩
    generalize keystreamLoop aes key iv 0 recs ⟨p, (RangeSet.ofRanges m.keys).ranges, []⟩ = x at *
    generalize keystreamLoop aes key iv 0 recs ⟨v, (RangeSet.ofRanges m.keys).ranges, []⟩ = y at *
    cases hk with
    | err e => exact .err e
    | panic => exact .panic
    | ok hk =>
      rename_i a b
      obtain ⟨h1, h2, h3⟩ := hk
      simp only [Outcome.bind_ok, Outcome.pure_eq]
      rw [← h3]
      rcases xorCall_step h1 (RangeSet.ofRanges m.keys).len (m.map (·.2) ++ a.out) with ⟨x1, x2⟩ | ⟨p', v', ct, x1, x2, hx⟩
      · rw [x1, x2]; exact .panic
      · rw [x1, x2]
        simp only
        cases chunkMap ct (RangeSet.ofRanges m.keys).ranges with
        | none => exact .panic
        | some m => exact .ok ⟨hx, rfl⟩

/-! ## Hash commitments -/

theorem allocBlinder_step {p v : ZkVm} (h : Sync F p v) (b : Blinder) :
    StepOut F (allocBlinder p (some b)) (allocBlinder v none) := by
  have hw : writeAt (p.mem ++ (List.range' p.mem.length 16).map p.fill) p.mem.length b.toList =
      some (p.mem ++ b.toList) := by
    unfold writeAt
    rw [if_pos (by simp)]
    simp
  have h16 : b.toList.length = 16 := by simp
  simp only [allocBlinder, ZkVm.assign, ZkVm.mark, ZkVm.alloc, h16, ne_eq, not_true, if_false, hw, Option.map_some]
  have hs := h.step
  refine .ok ⟨⟨⟨hs.fill, by simp [hs.mem], by simp [hs.ops], by simp [hs.marks, hs.mem, Vis.dual]⟩, ?_⟩,
    by simp [hs.mem]⟩
  refine h.agree.grow ⟨_, rfl⟩ ⟨_, rfl⟩ hs.mem (fun m hm hp => ?_) fun x hx => .inl (by simpa using hx)
  simp only [List.mem_append, List.mem_singleton] at hm
  rcases hm with hm | rfl
  · exact .inl hm
  · cases hp

theorem hashOne_step (hc : HashCircuits) {p v : ZkVm} (h : Sync F p v) (refs : RangeMap) (idx : RangeSet)
    (alg : HashAlgId) (b : VmVec) : StepOut F (hashOne hc p refs idx alg b) (hashOne hc v refs idx alg b) := by
  unfold hashOne
  cases hc alg with
  | none => exact .err _
  | some f =>
    cases idx.ranges.mapM refs.get with
    | none => exact .panic
    | some vs => exact .ok (h.call (fun _ => by simp) (by simp))

theorem hashCommitInner_step (hc : HashCircuits) (blinders : Nat → Blinder) (refs : TranscriptRefs)
    (l : List (Direction × RangeSet × HashAlgId)) (n : Nat) {p v : ZkVm} (h : Sync F p v) :
    StepOut F (hashCommitInner hc (fun n => some (blinders n)) refs n l p)
      (hashCommitInner hc (fun _ => none) refs n l v) := by
  induction l generalizing n p v with
  | nil => exact .ok ⟨h, rfl⟩
  | cons q rest ih =>
    obtain ⟨d, idx, alg⟩ := q
    simp only [hashCommitInner]
    refine (allocBlinder_step h (blinders n)).bind ?_
    rintro ⟨p1, b⟩ ⟨v1, b'⟩ ⟨h1, h2⟩
    simp only at h1 h2
    subst h2
    refine (hashOne_step hc h1 (refs.of d) idx alg b).bind ?_
    rintro ⟨p2, o⟩ ⟨v2, o'⟩ ⟨h1, h2⟩
    simp only at h1 h2
    subst h2
    refine (ih (n + 1) h1).bind ?_
    rintro ⟨p3, o⟩ ⟨v3, o'⟩ ⟨h1, h2⟩
    simp only at h1 h2
    subst h2
    exact .ok ⟨h1, rfl⟩

end Tlsn
