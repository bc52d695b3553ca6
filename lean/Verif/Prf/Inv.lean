import Verif.Prf.Lemmas
import Mathlib.Data.List.Nodup

/-! # The invariant of one function of the PRF -/

namespace Tlsn.Hmac

/-- The fixed parts of a function: its key, its outputs, their number, the inputs it owns, and the length of its seed with
the label. -/
structure FnCtx where
  key : VecRef
  outs : List VecRef
  n : Nat
  lo : Nat
  hi : Nat
  seedLen : Nat

/-- An input of 32 bytes. -/
def slotRef (id : Nat) : VecRef := ⟨some id, 32, Ref.input id 32⟩

/-- One hash of the reduced mode. -/
def slotHash (S : Sha) (key : VecRef) (id : Nat) : ReducedHash :=
  ⟨slotRef id, hmacRef S (computePartial S key opad) (slotRef id)⟩

/-- The machine after an input got a value. -/
def Vm.put (vm : Vm) (id : Nat) (v : Bytes) : Vm :=
  { vm with committed := fun j => if j = id then some v else vm.committed j }

/-- The seed reference of the normal mode. -/
def FnCtx.seedRef (c : FnCtx) (id : Nat) : VecRef := ⟨some id, c.seedLen, Ref.input id c.seedLen⟩

/-- The references that the normal mode allocates. -/
def FnCtx.loop (S : Sha) (c : FnCtx) (id : Nat) : List NormalHash × List NormalHash :=
  normalLoop S (computePartial S c.key opad) (computePartial S c.key ipad) (c.seedRef id) c.n (c.seedRef id)

structure NormalInv (S : Sha) (c : FnCtx) (f : NormalFn) (vm : Vm) (id : Nat) : Prop where
  low : c.lo ≤ id
  high : id < c.hi
  a : f.a = (c.loop S id).1
  p : f.p = (c.loop S id).2
  outs : c.outs = f.p.map (·.output)
  fin : f.finished = true → ∃ sl, f.seed = some sl ∧ sl.length = c.seedLen ∧ vm.committed id = some sl
  open_ : f.finished = false → vm.committed id = none

/-- The state of the reduced mode before iteration `m + 1` has assigned its `A` hash. -/
structure Before (S : Sha) (c : FnCtx) (f : ReducedFn) (vm : Vm) (as ps : List Nat) (m : Nat) (k sl : Bytes) : Prop where
  seed : f.seed = some sl
  key : c.key.val.run vm.executed = some k
  a : f.a = (as.drop m).map (slotHash S c.key)
  p : f.p = (ps.drop m).map (slotHash S c.key)
  aNone : ∀ id ∈ as.drop m, vm.committed id = none
  pNone : ∀ id ∈ ps.drop m, vm.committed id = none
  pDone : ∀ j id, j < m → ps[j]? = some id → vm.committed id = some (S.innerHash k (S.aSeq k sl (j + 1) ++ sl))

/-- The same after the `A` hash has been assigned. -/
structure After (S : Sha) (c : FnCtx) (f : ReducedFn) (vm : Vm) (as ps : List Nat) (m : Nat) (k sl : Bytes)
    (inner : HState) (aOut : Ref Bytes) : Prop where
  seed : f.seed = some sl
  lt : m < c.n
  key : c.key.val.run vm.executed = some k
  innerEq : inner = S.absorb S.iv (maskKey k 0x36)
  a : f.a = (as.drop (m + 1)).map (slotHash S c.key)
  p : f.p = (ps.drop m).map (slotHash S c.key)
  aNone : ∀ id ∈ as.drop (m + 1), vm.committed id = none
  aNow : ∃ id, as[m]? = some id ∧ aOut = (slotHash S c.key id).output.val ∧
    vm.committed id = some (S.innerHash k (S.aSeq k sl m))
  pNone : ∀ id ∈ ps.drop m, vm.committed id = none
  pDone : ∀ j id, j < m → ps[j]? = some id → vm.committed id = some (S.innerHash k (S.aSeq k sl (j + 1) ++ sl))

/-- The inputs of the reduced mode. -/
structure Slots (S : Sha) (c : FnCtx) (as ps : List Nat) : Prop where
  aLen : as.length = c.n
  pLen : ps.length = c.n
  nodup : (as ++ ps).Nodup
  range : ∀ id ∈ as ++ ps, c.lo ≤ id ∧ id < c.hi
  outs : c.outs = ps.map fun id => (slotHash S c.key id).output

def ReducedState.Inv (S : Sha) (c : FnCtx) (f : ReducedFn) (vm : Vm) (as ps : List Nat) : ReducedState → Prop
  | .innerPartial r => r = (computePartial S c.key ipad).st ∧ f.a = as.map (slotHash S c.key) ∧
      f.p = ps.map (slotHash S c.key) ∧ ∀ id ∈ as ++ ps, vm.committed id = none
  | .computeA _ _ _ => False
  | .computeP i inner aOut => ∃ m k sl, i = m + 1 ∧ After S c f vm as ps m k sl inner aOut
  | .done => ∃ k sl, f.seed = some sl ∧ c.key.val.run vm.executed = some k ∧
      ∀ j id, ps[j]? = some id → vm.committed id = some (S.innerHash k (S.aSeq k sl (j + 1) ++ sl))

structure ReducedInv (S : Sha) (c : FnCtx) (f : ReducedFn) (vm : Vm) (as ps : List Nat) : Prop where
  slots : Slots S c as ps
  iters : f.iterations = c.n
  st : f.state.Inv S c f vm as ps

/-- What holds of a function of the PRF between calls. -/
def FnInv (S : Sha) (c : FnCtx) (vm : Vm) : InnerPrf → Prop
  | .normal f => ∃ id, NormalInv S c f vm id
  | .reduced f => ∃ as ps, ReducedInv S c f vm as ps

/-- What is assumed of the fixed parts. -/
structure FnCtx.Ok (c : FnCtx) : Prop where
  sized : c.key.Sized
  short : c.key.len ≤ 64
  pos : 0 < c.n

/-- The inputs from `lo` up to `hi` stay as they are and nothing is forgotten. -/
structure Keeps (lo hi : Nat) (vm vm' : Vm) : Prop where
  committed : ∀ id, lo ≤ id → id < hi → vm'.committed id = vm.committed id
  executed : vm.executed.Le vm'.executed

/-- Only inputs from `lo` up to `hi` get values. -/
structure Owns (lo hi : Nat) (vm vm' : Vm) : Prop where
  outside : ∀ id, id < lo ∨ hi ≤ id → vm'.committed id = vm.committed id
  le : vm.committed.Le vm'.committed
  executed : vm'.executed = vm.executed
  next : vm'.next = vm.next

theorem Owns.refl (lo hi : Nat) (vm : Vm) : Owns lo hi vm vm := ⟨fun _ _ => rfl, Env.Le.refl _, rfl, rfl⟩

theorem Owns.trans {lo hi : Nat} {a b c : Vm} (h1 : Owns lo hi a b) (h2 : Owns lo hi b c) : Owns lo hi a c :=
  ⟨fun id h => (h2.outside id h).trans (h1.outside id h), h1.le.trans h2.le, h2.executed.trans h1.executed,
    h2.next.trans h1.next⟩

theorem Owns.keeps {lo hi lo' hi' : Nat} {vm vm' : Vm} (h : Owns lo hi vm vm') (hd : hi' ≤ lo ∨ hi ≤ lo') :
    Keeps lo' hi' vm vm' :=
  ⟨fun id h1 h2 => h.outside id (by omega), by rw [h.executed]; exact Env.Le.refl _⟩

theorem Vm.put_owns (vm : Vm) (id : Nat) (v : Bytes) (lo hi : Nat) (h1 : lo ≤ id) (h2 : id < hi)
    (hn : vm.committed id = none) : Owns lo hi vm (vm.put id v) where
  outside := by
    intro j hj
    show (if j = id then some v else vm.committed j) = _
    rw [if_neg (by omega)]
  le := by
    intro j w hw
    show (if j = id then some v else vm.committed j) = _
    by_cases hj : j = id
    · subst hj; rw [hn] at hw; cases hw
    · rw [if_neg hj]; exact hw
  executed := rfl
  next := rfl

@[simp] theorem Vm.put_same (vm : Vm) (id : Nat) (v : Bytes) : (vm.put id v).committed id = some v := if_pos rfl
theorem Vm.put_other (vm : Vm) {id j : Nat} (v : Bytes) (h : j ≠ id) : (vm.put id v).committed j = vm.committed j :=
  if_neg h
@[simp] theorem Vm.put_executed (vm : Vm) (id : Nat) (v : Bytes) : (vm.put id v).executed = vm.executed := rfl

/-! ## What the outputs are -/

theorem slotHash_run (S : Sha) (key : VecRef) (id : Nat) (e : Env) (hk : key.Sized) (hk64 : key.len ≤ 64)
    (hl : ∀ v, e id = some v → v.length = 32) :
    (slotHash S key id).output.val.run e =
      (key.val.run e).bind fun k => (e id).map fun x => S.sha256 (maskKey k 0x5c ++ x) := by
  have := hmacRef_run S key (slotRef id) e hk hk64 (Ref.input_sized id 32 e)
  rw [show (slotRef id).val.run e = e id from Ref.input_eq id 32 e hl] at this
  exact this

theorem Sha.innerHash_length (S : Sha) (k m : Bytes) : (S.innerHash k m).length = 32 := S.sha256_length _

/-- The outputs of a function are the terms of `P_hash`, if they are known. -/
theorem FnInv.sound {S : Sha} {c : FnCtx} (hc : c.Ok) {vm : Vm} (hle : vm.executed.Le vm.committed) {f : InnerPrf}
    (h : FnInv S c vm f) (seed : Option Bytes) (hseed : seed = match f with | .normal f => f.seed | .reduced f => f.seed)
    (i : Nat) (o : VecRef) (ho : c.outs[i]? = some o) (v : Bytes) (hv : o.val.run vm.committed = some v) :
    ∃ k sl, c.key.val.run vm.committed = some k ∧ seed = some sl ∧ v = S.hmac k (S.aSeq k sl (i + 1) ++ sl) := by
  cases f with
  | normal f =>
    obtain ⟨id, h⟩ := h
    rw [h.outs, h.p] at ho
    rw [List.getElem?_map] at ho
    obtain ⟨p, hp, rfl⟩ := Option.map_eq_some_iff.mp ho
    have hlt : i < c.n := by
      have := (List.getElem?_eq_some_iff.mp hp).1
      rw [FnCtx.loop, (normalLoop_length _ _ _ _ _ _).2] at this
      exact this
    have hsz : (c.seedRef id).SizedAt vm.committed := Ref.input_sized id c.seedLen _
    obtain ⟨p', hp', hr⟩ := normalLoop_run S c.key (c.seedRef id) vm.committed hc.sized hc.short hsz c.n 0 (c.seedRef id) hsz
      (by intro k _; simp [Sha.aSeq]) i hlt
    have : p' = p := Option.some.inj (hp'.symm.trans hp)
    subst this
    rw [hr] at hv
    obtain ⟨k, hk, hv⟩ := Option.bind_eq_some_iff.mp hv
    obtain ⟨sl, hsl, rfl⟩ := Option.map_eq_some_iff.mp hv
    refine ⟨k, sl, hk, ?_, by rw [Nat.zero_add]⟩
    have hsl : vm.committed id = some sl := (Option.filter_eq_some_iff.mp hsl).1
    cases hf : f.finished with
    | true =>
      obtain ⟨sl', h1, _, h3⟩ := h.fin hf
      rw [h3] at hsl
      rw [hseed, ← hsl]; exact h1
    | false => exact absurd ((h.open_ hf).symm.trans hsl) (by simp)
  | reduced f =>
    obtain ⟨as, ps, h⟩ := h
    rw [h.slots.outs, List.getElem?_map] at ho
    obtain ⟨id, hid, rfl⟩ := Option.map_eq_some_iff.mp ho
    have hmem : id ∈ as ++ ps := List.mem_append_right _ (List.mem_of_getElem? hid)
    have fin : ∀ k sl, c.key.val.run vm.executed = some k → f.seed = some sl →
        vm.committed id = some (S.innerHash k (S.aSeq k sl (i + 1) ++ sl)) →
        ∃ k sl, c.key.val.run vm.committed = some k ∧ seed = some sl ∧ v = S.hmac k (S.aSeq k sl (i + 1) ++ sl) := by
      intro k sl hk hs hcm
      have hk' := c.key.val.mono _ _ k hle hk
      rw [slotHash_run S c.key id _ hc.sized hc.short (by
        intro w hw; rw [hcm] at hw; cases hw; exact S.innerHash_length _ _), hk', hcm] at hv
      refine ⟨k, sl, hk', hseed.trans hs, ?_⟩
      have hv := Option.some.inj hv
      rw [← hv]; rfl
    have non : vm.committed id = none → False := by
      intro hcm
      rw [slotHash_run S c.key id _ hc.sized hc.short (by intro w hw; rw [hcm] at hw; cases hw), hcm] at hv
      cases hkv : c.key.val.run vm.committed <;> rw [hkv] at hv <;> cases hv
    have hst := h.st
    cases hs : f.state with
    | innerPartial r =>
      rw [hs] at hst
      exact (non (hst.2.2.2 id hmem)).elim
    | computeA i s m => rw [hs] at hst; exact hst.elim
    | computeP it inner aOut =>
      rw [hs] at hst
      obtain ⟨m, k, sl, -, ha⟩ := hst
      by_cases him : i < m
      · exact fin k sl ha.key ha.seed (ha.pDone i id him hid)
      · refine (non (ha.pNone id ?_)).elim
        refine List.mem_of_getElem? (i := i - m) ?_
        rw [List.getElem?_drop]
        have : m + (i - m) = i := by omega
        rw [this]; exact hid
    | done =>
      rw [hs] at hst
      obtain ⟨k, sl, h1, h2, h3⟩ := hst
      exact fin k sl h2 h1 (h3 i id hid)

/-- A function that is done has its outputs as soon as its key is known. -/
theorem FnInv.known {S : Sha} {c : FnCtx} (hc : c.Ok) {vm : Vm} (hle : vm.executed.Le vm.committed) {f : InnerPrf}
    (h : FnInv S c vm f) (hd : f.isDone = true) (k : Bytes) (hk : c.key.val.run vm.committed = some k)
    (i : Nat) (o : VecRef) (ho : c.outs[i]? = some o) : ∃ v, o.val.run vm.committed = some v := by
  cases f with
  | normal f =>
    obtain ⟨id, h⟩ := h
    rw [h.outs, h.p] at ho
    rw [List.getElem?_map] at ho
    obtain ⟨p, hp, rfl⟩ := Option.map_eq_some_iff.mp ho
    have hlt : i < c.n := by
      have := (List.getElem?_eq_some_iff.mp hp).1
      rw [FnCtx.loop, (normalLoop_length _ _ _ _ _ _).2] at this
      exact this
    obtain ⟨sl, h1, h2, h3⟩ := h.fin hd
    have hsz : (c.seedRef id).SizedAt vm.committed := Ref.input_sized id c.seedLen _
    obtain ⟨p', hp', hr⟩ := normalLoop_run S c.key (c.seedRef id) vm.committed hc.sized hc.short hsz c.n 0 (c.seedRef id) hsz
      (by intro k _; simp [Sha.aSeq]) i hlt
    have : p' = p := Option.some.inj (hp'.symm.trans hp)
    subst this
    have h3 : (c.seedRef id).val.run vm.committed = some sl := Option.filter_eq_some_iff.mpr ⟨h3, by simp [h2]⟩
    rw [hr, hk, h3]
    exact ⟨_, rfl⟩
  | reduced f =>
    obtain ⟨as, ps, h⟩ := h
    rw [h.slots.outs, List.getElem?_map] at ho
    obtain ⟨id, hid, rfl⟩ := Option.map_eq_some_iff.mp ho
    have hst := h.st
    cases hs : f.state with
    | done =>
      rw [hs] at hst
      obtain ⟨k, sl, h1, h2, h3⟩ := hst
      have hk' := c.key.val.mono _ _ k hle h2
      have hcm := h3 i id hid
      rw [slotHash_run S c.key id _ hc.sized hc.short (by
        intro w hw; rw [hcm] at hw; cases hw; exact S.innerHash_length _ _), hk', hcm]
      exact ⟨_, rfl⟩
    | _ => simp [InnerPrf.isDone, ReducedFn.isDone, hs] at hd

/-! ## The invariant is kept -/

theorem FnInv.frame {S : Sha} {c : FnCtx} {vm vm' : Vm} {f : InnerPrf} (h : FnInv S c vm f)
    (hk : Keeps c.lo c.hi vm vm') : FnInv S c vm' f := by
  cases f with
  | normal f =>
    obtain ⟨id, h⟩ := h
    have e := hk.committed id h.low h.high
    exact ⟨id, h.low, h.high, h.a, h.p, h.outs, by rw [e]; exact h.fin, by rw [e]; exact h.open_⟩
  | reduced f =>
    obtain ⟨as, ps, h⟩ := h
    have e : ∀ id ∈ as ++ ps, vm'.committed id = vm.committed id :=
      fun id hid => hk.committed id (h.slots.range id hid).1 (h.slots.range id hid).2
    refine ⟨as, ps, h.slots, h.iters, ?_⟩
    have hst := h.st
    cases hs : f.state with
    | innerPartial r =>
      rw [hs] at hst
      exact ⟨hst.1, hst.2.1, hst.2.2.1, fun id hid => (e id hid).trans (hst.2.2.2 id hid)⟩
    | computeA i s m => rw [hs] at hst; exact hst.elim
    | computeP it inner aOut =>
      rw [hs] at hst
      obtain ⟨m, k, sl, hm, ha⟩ := hst
      refine ⟨m, k, sl, hm, ha.seed, ha.lt, c.key.val.mono _ _ k hk.executed ha.key, ha.innerEq, ha.a, ha.p, ?_, ?_, ?_, ?_⟩
      · intro id hid
        exact (e id (List.mem_append_left _ (List.mem_of_mem_drop hid))).trans (ha.aNone id hid)
      · obtain ⟨id, h1, h2, h3⟩ := ha.aNow
        exact ⟨id, h1, h2, (e id (List.mem_append_left _ (List.mem_of_getElem? h1))).trans h3⟩
      · intro id hid
        exact (e id (List.mem_append_right _ (List.mem_of_mem_drop hid))).trans (ha.pNone id hid)
      · intro j id hj hid
        exact (e id (List.mem_append_right _ (List.mem_of_getElem? hid))).trans (ha.pDone j id hj hid)
    | done =>
      rw [hs] at hst
      obtain ⟨k, sl, h1, h2, h3⟩ := hst
      exact ⟨k, sl, h1, c.key.val.mono _ _ k hk.executed h2, fun j id hid =>
        (e id (List.mem_append_right _ (List.mem_of_getElem? hid))).trans (h3 j id hid)⟩

/-- The seed of a function. -/
def InnerPrf.seed : InnerPrf → Option Bytes
  | .normal f => f.seed
  | .reduced f => f.seed

/-- The label of a function. -/
def InnerPrf.label : InnerPrf → Bytes
  | .normal f => f.label
  | .reduced f => f.label

/-- How many rounds a function still needs. -/
def InnerPrf.todo (n : Nat) : InnerPrf → Nat
  | .normal f => if f.finished then 0 else 1
  | .reduced f => match f.state with
    | .innerPartial _ => n + 1
    | .computeA i _ _ => n + 2 - i
    | .computeP i _ _ => n + 1 - i
    | .done => 0

/-- Setting the seed of a function that has none. -/
theorem FnInv.setSeed {S : Sha} {c : FnCtx} {vm : Vm} {f : InnerPrf} (h : FnInv S c vm f) (hs : f.seed = none)
    (seed : Bytes) : FnInv S c vm (f.setStartSeed seed) := by
  cases f with
  | normal f =>
    obtain ⟨id, h⟩ := h
    refine ⟨id, h.low, h.high, h.a, h.p, h.outs, ?_, h.open_⟩
    intro hf
    obtain ⟨sl, h1, _⟩ := h.fin hf
    have : f.seed = none := hs
    rw [this] at h1; cases h1
  | reduced f =>
    obtain ⟨as, ps, h⟩ := h
    have hs : f.seed = none := hs
    refine ⟨as, ps, h.slots, h.iters, ?_⟩
    have hst := h.st
    show f.state.Inv S c (f.setStartSeed seed) vm as ps
    cases hst' : f.state with
    | innerPartial r => rw [hst'] at hst; exact hst
    | computeA i s m => rw [hst'] at hst; exact hst.elim
    | computeP it inner aOut =>
      rw [hst'] at hst
      obtain ⟨m, k, sl, _, ha⟩ := hst
      have := ha.seed; rw [hs] at this; cases this
    | done =>
      rw [hst'] at hst
      obtain ⟨k, sl, h1, _⟩ := hst
      rw [hs] at h1; cases h1

theorem assign_slot (S : Sha) (vm : Vm) (id : Nat) (k m : Bytes) (hk : k.length ≤ 64) (hn : vm.committed id = none) :
    assignInnerLocal S vm (slotRef id) (S.absorb S.iv (maskKey k 0x36)) m = .ok (vm.put id (S.innerHash k m)) := by
  unfold assignInnerLocal
  rw [local_innerHash S k m hk]
  simp [Vm.assign, slotRef, S.innerHash_length, hn, Vm.put]

theorem flushA_ok {S : Sha} {c : FnCtx} (hc : c.Ok) {f : ReducedFn} {vm : Vm} {as ps : List Nat} {m : Nat} {k sl : Bytes}
    (hsl : Slots S c as ps) (hb : Before S c f vm as ps m k sl) (hm : m < c.n) :
    ∃ f' vm', f.flushA S vm (m + 1) (S.absorb S.iv (maskKey k 0x36)) (S.aSeq k sl m) = .ok (f', vm') ∧
      f'.iterations = f.iterations ∧ f'.seed = f.seed ∧ f'.label = f.label ∧ Owns c.lo c.hi vm vm' ∧
      ∃ aOut, f'.state = .computeP (m + 1) (S.absorb S.iv (maskKey k 0x36)) aOut ∧
        After S c f' vm' as ps m k sl (S.absorb S.iv (maskKey k 0x36)) aOut := by
  have hk := hc.sized _ k hb.key
  have hlen : m < as.length := by rw [hsl.aLen]; exact hm
  have hd : as.drop m = as[m] :: as.drop (m + 1) := List.drop_eq_getElem_cons hlen
  have hnone : vm.committed as[m] = none := hb.aNone _ (hd ▸ List.mem_cons_self)
  have hget : as[m]? = some as[m] := List.getElem?_eq_getElem hlen
  have hmemA : as[m] ∈ as := List.getElem_mem hlen
  have hr := hsl.range as[m] (List.mem_append_left _ hmemA)
  have hnd := hsl.nodup
  rw [List.nodup_append] at hnd
  generalize hid : as[m] = id at *
  have ha : f.a = slotHash S c.key id :: (as.drop (m + 1)).map (slotHash S c.key) := by rw [hb.a, hd, List.map_cons]
  refine ⟨{ f with a := (as.drop (m + 1)).map (slotHash S c.key),
                   state := .computeP (m + 1) (S.absorb S.iv (maskKey k 0x36)) (slotHash S c.key id).output.val },
    vm.put id (S.innerHash k (S.aSeq k sl m)), ?_, rfl, rfl, rfl, vm.put_owns _ _ _ _ hr.1 hr.2 hnone,
    (slotHash S c.key id).output.val, rfl, ?_⟩
  · unfold ReducedFn.flushA
    rw [ha]
    show (assignInnerLocal S vm (slotRef id) _ _ >>= _) = _
    rw [assign_slot S vm id k _ (by rw [hk]; exact hc.short) hnone]
    rfl
  · have hne : ∀ j ∈ ps, j ≠ id := by
      intro j hj e
      subst e
      exact hnd.2.2 j hmemA j hj rfl
    refine ⟨hb.seed, hm, hb.key, rfl, rfl, hb.p, ?_, ?_, ?_, ?_⟩
    · intro j hj
      have : j ≠ id := by
        rintro rfl
        have hnd1 : (as.drop m).Nodup := hnd.1.sublist (List.drop_sublist _ _)
        rw [hd] at hnd1
        exact (List.nodup_cons.mp hnd1).1 hj
      rw [vm.put_other _ this]
      exact hb.aNone j (by rw [hd]; exact List.mem_cons_of_mem _ hj)
    · exact ⟨id, hget, rfl, vm.put_same _ _⟩
    · intro j hj
      rw [vm.put_other _ (hne j (List.mem_of_mem_drop hj))]
      exact hb.pNone j hj
    · intro j jd hj hjd
      rw [vm.put_other _ (hne jd (List.mem_of_getElem? hjd))]
      exact hb.pDone j jd hj hjd

/-- The machine has run since the last input from `lo` up to `hi`. -/
def InSync (lo hi : Nat) (vm : Vm) : Prop := ∀ id, lo ≤ id → id < hi → vm.executed id = vm.committed id

/-- Flushing a function of the reduced mode. -/
theorem reduced_flush {S : Sha} {c : FnCtx} (hc : c.Ok) {f : ReducedFn} {vm : Vm} {as ps : List Nat}
    (hle : vm.executed.Le vm.committed) (h : ReducedInv S c f vm as ps) (sl : Bytes) (hsl : f.seed = some sl) :
    ∃ f' vm', f.flush S vm = .ok (f', vm') ∧ ReducedInv S c f' vm' as ps ∧ f'.seed = f.seed ∧ f'.label = f.label ∧
      Owns c.lo c.hi vm vm' ∧ (InnerPrf.reduced f').todo c.n ≤ (InnerPrf.reduced f).todo c.n ∧
      (f.isDone = false → InSync c.lo c.hi vm → (∃ k, c.key.val.run vm.executed = some k) →
        (InnerPrf.reduced f').todo c.n < (InnerPrf.reduced f).todo c.n) := by
  have hst := h.st
  cases hs : f.state with
  | computeA i s m => rw [hs] at hst; exact hst.elim
  | done =>
    refine ⟨f, vm, by unfold ReducedFn.flush; rw [hs], h, rfl, rfl, Owns.refl _ _ _, Nat.le_refl _, ?_⟩
    intro hd; simp [ReducedFn.isDone, hs] at hd
  | innerPartial r =>
    rw [hs] at hst
    obtain ⟨hr, ha, hp, hnone⟩ := hst
    cases hkv : c.key.val.run vm.executed with
    | none =>
      refine ⟨f, vm, ?_, h, rfl, rfl, Owns.refl _ _ _, Nat.le_refl _, by rintro _ _ ⟨k, hk⟩; cases hk⟩
      unfold ReducedFn.flush
      rw [hs]
      have : vm.recv r = none := by
        rw [hr]; show (computePartial S c.key ipad).st.run vm.executed = none
        rw [partial_st_run S c.key _ hc.sized, hkv]; rfl
      simp only [this]
    | some k =>
      have hrecv : vm.recv r = some (S.absorb S.iv (maskKey k 0x36)) := by
        rw [hr]; show (computePartial S c.key ipad).st.run vm.executed = _
        rw [partial_st_run S c.key _ hc.sized, hkv]; rfl
      have hb : Before S c { f with state := .computeA 1 (S.absorb S.iv (maskKey k 0x36)) sl } vm as ps 0 k sl :=
        ⟨hsl, hkv, ha, hp, fun id hid => hnone id (List.mem_append_left _ hid),
          fun id hid => hnone id (List.mem_append_right _ hid), fun _ _ hj => by omega⟩
      obtain ⟨f', vm', h1, h2, h3, h4, h5, aOut, h6, h7⟩ := flushA_ok hc h.slots hb hc.pos
      refine ⟨f', vm', ?_, ⟨h.slots, h2.trans h.iters, ?_⟩, h3, h4, h5, ?_, ?_⟩
      · unfold ReducedFn.flush
        rw [hs]
        simp only [hrecv]
        split
        · rename_i hn; rw [hsl] at hn; cases hn
        · rename_i sl2 hn
          have : sl2 = sl := Option.some.inj (hn.symm.trans hsl)
          subst this
          exact h1
      · rw [h6]; exact ⟨0, k, sl, rfl, h7⟩
      · simp [InnerPrf.todo, h6, hs]
      · intro _ _ _; simp [InnerPrf.todo, h6, hs]
  | computeP it inner aOut =>
    rw [hs] at hst
    obtain ⟨m, k, sl', rfl, ha⟩ := hst
    have : sl' = sl := Option.some.inj (ha.seed.symm.trans hsl)
    subst this
    have hkl := hc.sized _ k ha.key
    obtain ⟨aid, haid, hao, hac⟩ := ha.aNow
    cases hrecv : vm.recv aOut with
    | none =>
      refine ⟨f, vm, ?_, h, rfl, rfl, Owns.refl _ _ _, Nat.le_refl _, ?_⟩
      · unfold ReducedFn.flush
        rw [hs]
        simp only [ReducedFn.flushP, hrecv]
      · intro _ he _
        exfalso
        have hr := h.slots.range aid (List.mem_append_left _ (List.mem_of_getElem? haid))
        have he := he aid hr.1 hr.2
        have : vm.recv aOut = some (S.hmac k (S.aSeq k sl' m)) := by
          rw [hao]
          show (slotHash S c.key aid).output.val.run vm.executed = _
          rw [slotHash_run S c.key aid _ hc.sized hc.short (by
            intro w hw; rw [he, hac] at hw; cases hw; exact S.innerHash_length _ _), ha.key, he, hac]
          rfl
        rw [this] at hrecv; cases hrecv
    | some output =>
      have hcomm : aOut.run vm.executed = some output := hrecv
      rw [hao] at hcomm
      have hcomm := (slotHash S c.key aid).output.val.mono _ _ _ hle hcomm
      rw [slotHash_run S c.key aid _ hc.sized hc.short (by
        intro w hw; rw [hac] at hw; cases hw; exact S.innerHash_length _ _), c.key.val.mono _ _ k hle ha.key, hac] at hcomm
      have hout : output = S.aSeq k sl' (m + 1) := (Option.some.inj hcomm).symm
      have hplen : m < ps.length := by rw [h.slots.pLen]; exact ha.lt
      have hd : ps.drop m = ps[m] :: ps.drop (m + 1) := List.drop_eq_getElem_cons hplen
      have hnone : vm.committed ps[m] = none := ha.pNone _ (hd ▸ List.mem_cons_self)
      have hget : ps[m]? = some ps[m] := List.getElem?_eq_getElem hplen
      have hmemP : ps[m] ∈ ps := List.getElem_mem hplen
      have hr := h.slots.range ps[m] (List.mem_append_right _ hmemP)
      have hnd := h.slots.nodup
      rw [List.nodup_append] at hnd
      generalize ps[m] = pid at *
      have hp : f.p = slotHash S c.key pid :: (ps.drop (m + 1)).map (slotHash S c.key) := by rw [ha.p, hd, List.map_cons]
      have hass : assignInnerLocal S vm (slotHash S c.key pid).innerLocal inner (output ++ sl') =
          .ok (vm.put pid (S.innerHash k (output ++ sl'))) := by
        rw [ha.innerEq]
        exact assign_slot S vm pid k _ (by rw [hkl]; exact hc.short) hnone
      have hown := vm.put_owns pid (S.innerHash k (output ++ sl')) c.lo c.hi hr.1 hr.2 hnone
      have hneA : ∀ j ∈ as, j ≠ pid := by
        rintro j hj rfl
        exact hnd.2.2 j hj j hmemP rfl
      have hnd1 : (ps.drop m).Nodup := hnd.2.1.sublist (List.drop_sublist _ _)
      rw [hd] at hnd1
      have hneP : ∀ j ∈ ps.drop (m + 1), j ≠ pid := by
        rintro j hj rfl
        exact (List.nodup_cons.mp hnd1).1 hj
      have hold : ∀ j id, j < m → ps[j]? = some id → id ≠ pid := by
        rintro j id hj hid rfl
        have := (List.getElem?_inj (by omega) hnd.2.1).mp (hid.trans hget.symm)
        omega
      have hdone : ∀ j id, j < m + 1 → ps[j]? = some id →
          (vm.put pid (S.innerHash k (output ++ sl'))).committed id =
            some (S.innerHash k (S.aSeq k sl' (j + 1) ++ sl')) := by
        intro j id hj hid
        by_cases hjm : j = m
        · subst hjm
          have : id = pid := Option.some.inj (hid.symm.trans hget)
          rw [this, Vm.put_same, hout]
        · rw [vm.put_other _ (hold j id (by omega) hid)]
          exact ha.pDone j id (by omega) hid
      have hflush : f.flush S vm = (if m + 1 = f.iterations then
          .ok ({ f with p := (ps.drop (m + 1)).map (slotHash S c.key), state := .done },
            vm.put pid (S.innerHash k (output ++ sl')))
          else ReducedFn.flushA S { f with p := (ps.drop (m + 1)).map (slotHash S c.key), state := .computeA (m + 1 + 1) inner output }
            (vm.put pid (S.innerHash k (output ++ sl'))) (m + 1 + 1) inner output) := by
        unfold ReducedFn.flush
        rw [hs]
        show f.flushP S vm (m + 1) inner aOut = _
        unfold ReducedFn.flushP
        rw [hrecv]
        simp only
        rw [hp, hsl]
        simp only
        rw [hass]
        rfl
      by_cases hlast : m + 1 = f.iterations
      · rw [if_pos hlast] at hflush
        refine ⟨_, _, hflush, ⟨h.slots, h.iters, ?_⟩, rfl, rfl, hown, ?_, ?_⟩
        · refine ⟨k, sl', hsl, ha.key, ?_⟩
          intro j id hid
          refine hdone j id ?_ hid
          have := (List.getElem?_eq_some_iff.mp hid).1
          rw [h.slots.pLen, ← h.iters] at this
          omega
        · simp [InnerPrf.todo]
        · intro _ _ _
          have := ha.lt
          simp [InnerPrf.todo, hs]; omega
      · rw [if_neg hlast] at hflush
        have hlt : m + 1 < c.n := by have := ha.lt; rw [h.iters] at hlast; omega
        have hb : Before S c { f with p := (ps.drop (m + 1)).map (slotHash S c.key), state := .computeA (m + 1 + 1) inner output }
            (vm.put pid (S.innerHash k (output ++ sl'))) as ps (m + 1) k sl' := by
          refine ⟨hsl, ha.key, ha.a, rfl, ?_, ?_, hdone⟩
          · intro id hid
            rw [vm.put_other _ (hneA id (List.mem_of_mem_drop hid))]
            exact ha.aNone id hid
          · intro id hid
            rw [vm.put_other _ (hneP id hid)]
            exact ha.pNone id (hd ▸ List.mem_cons_of_mem _ hid)
        obtain ⟨f', vm', h1, h2, h3, h4, h5, aOut', h6, h7⟩ := flushA_ok hc h.slots hb hlt
        rw [← ha.innerEq, ← hout] at h1
        refine ⟨f', vm', hflush.trans h1, ⟨h.slots, h2.trans h.iters, ?_⟩, h3, h4, hown.trans h5, ?_, ?_⟩
        · rw [h6]; exact ⟨m + 1, k, sl', rfl, h7⟩
        · simp [InnerPrf.todo, h6, hs]; omega
        · intro _ _ _; simp [InnerPrf.todo, h6, hs]; omega

/-- Flushing a function of the normal mode. -/
theorem normal_flush {S : Sha} {c : FnCtx} {f : NormalFn} {vm : Vm} {id : Nat} (hc : c.Ok)
    (h : NormalInv S c f vm id) (sl : Bytes) (hsl : f.seed = some sl) (hf : f.finished = false) :
    (sl.length ≠ c.seedLen → f.flush vm = .err .vm) ∧
    (sl.length = c.seedLen → ∃ f' vm', f.flush vm = .ok (f', vm') ∧ NormalInv S c f' vm' id ∧ f'.seed = f.seed ∧
      f'.label = f.label ∧ Owns c.lo c.hi vm vm' ∧ f'.finished = true) := by
  obtain ⟨n, hn⟩ : ∃ n, c.n = n + 1 := ⟨c.n - 1, by have := hc.pos; omega⟩
  have hmsg : f.a.head?.bind (·.msg.head?) = some (c.seedRef id) := by
    rw [h.a, FnCtx.loop, hn]; rfl
  have hflush : f.flush vm = (vm.assign (c.seedRef id) sl >>= fun vm1 => .ok ({ f with finished := true }, vm1)) := by
    unfold NormalFn.flush
    rw [if_neg (by simp [hf]), hmsg, hsl]
  have hnone := h.open_ hf
  constructor
  · intro hl
    rw [hflush]
    simp [Vm.assign, FnCtx.seedRef, hl]
  · intro hl
    refine ⟨{ f with finished := true }, vm.put id sl, ?_, ?_, rfl, rfl, vm.put_owns _ _ _ _ h.low h.high hnone, rfl⟩
    · rw [hflush]
      simp [Vm.assign, FnCtx.seedRef, hl, hnone, Vm.put]
    · exact ⟨h.low, h.high, h.a, h.p, h.outs, fun _ => ⟨sl, hsl, hl, vm.put_same _ _⟩, by simp⟩

/-- Whether the seed has the length that the machine expects; the reduced mode takes any. -/
def InnerPrf.SeedFits (c : FnCtx) : InnerPrf → Prop
  | .normal f => ∀ sl, f.seed = some sl → sl.length = c.seedLen
  | .reduced _ => True

/-- What flushing does to a function. -/
structure Flushed (S : Sha) (c : FnCtx) (f f' : InnerPrf) (vm vm' : Vm) : Prop where
  inv : FnInv S c vm' f'
  seed : f'.seed = f.seed
  label : f'.label = f.label
  owns : Owns c.lo c.hi vm vm'
  le : f'.todo c.n ≤ f.todo c.n
  lt : f.wantsFlush = true → InSync c.lo c.hi vm → (∃ k, c.key.val.run vm.executed = some k) →
    f'.todo c.n < f.todo c.n

theorem FnInv.flushIfWanted {S : Sha} {c : FnCtx} (hc : c.Ok) {vm : Vm} (hle : vm.executed.Le vm.committed) {f : InnerPrf}
    (h : FnInv S c vm f) :
    (∀ f' vm', f.flushIfWanted S vm = .ok (f', vm') → Flushed S c f f' vm vm') ∧
    (f.SeedFits c → ∃ f' vm', f.flushIfWanted S vm = .ok (f', vm')) := by
  cases hw : f.wantsFlush with
  | false =>
    have e : f.flushIfWanted S vm = .ok (f, vm) := by simp [InnerPrf.flushIfWanted, hw]
    refine ⟨?_, fun _ => ⟨f, vm, e⟩⟩
    intro f' vm' h'
    rw [e] at h'; cases h'
    exact ⟨h, rfl, rfl, Owns.refl _ _ _, Nat.le_refl _, by rw [hw]; intro hh; cases hh⟩
  | true =>
    have e : f.flushIfWanted S vm = f.flush S vm := by simp [InnerPrf.flushIfWanted, hw]
    rw [e]
    cases f with
    | reduced f =>
      obtain ⟨as, ps, h⟩ := h
      simp only [InnerPrf.wantsFlush, ReducedFn.wantsFlush, Bool.and_eq_true, Bool.not_eq_true', Option.isSome_iff_exists] at hw
      obtain ⟨hd, sl, hsl⟩ := hw
      obtain ⟨f', vm', h1, h2, h3, h4, h5, h6, h7⟩ := reduced_flush hc hle h sl hsl
      have e2 : (InnerPrf.reduced f).flush S vm = .ok (.reduced f', vm') := by
        show (f.flush S vm >>= _) = _
        rw [h1]; rfl
      rw [e2]
      refine ⟨?_, fun _ => ⟨_, _, rfl⟩⟩
      intro g vm'' hg
      cases hg
      exact ⟨⟨as, ps, h2⟩, h3, h4, h5, h6, fun _ => h7 hd⟩
    | normal f =>
      obtain ⟨id, h⟩ := h
      simp only [InnerPrf.wantsFlush, NormalFn.wantsFlush, Bool.and_eq_true, Bool.not_eq_true', Option.isSome_iff_exists] at hw
      obtain ⟨hd, sl, hsl⟩ := hw
      obtain ⟨hn, hy⟩ := normal_flush hc h sl hsl hd
      by_cases hl : sl.length = c.seedLen
      · obtain ⟨f', vm', h1, h2, h3, h4, h5, h6⟩ := hy hl
        have e2 : (InnerPrf.normal f).flush S vm = .ok (.normal f', vm') := by
          show (f.flush vm >>= _) = _
          rw [h1]; rfl
        rw [e2]
        refine ⟨?_, fun _ => ⟨_, _, rfl⟩⟩
        intro g vm'' hg
        cases hg
        exact ⟨⟨id, h2⟩, h3, h4, h5, by simp [InnerPrf.todo, h6], fun _ _ _ => by simp [InnerPrf.todo, h6, hd]⟩
      · have e2 : (InnerPrf.normal f).flush S vm = .err .vm := by
          show (f.flush vm >>= _) = _
          rw [hn hl]; rfl
        rw [e2]
        exact ⟨fun _ _ h => (by cases h), fun hf => absurd (hf sl hsl) hl⟩

theorem todo_eq_zero {S : Sha} {c : FnCtx} {vm : Vm} {f : InnerPrf} (h : FnInv S c vm f) :
    f.isDone = true ↔ f.todo c.n = 0 := by
  cases f with
  | normal f => cases hf : f.finished <;> simp [InnerPrf.isDone, InnerPrf.todo, hf]
  | reduced f =>
    obtain ⟨as, ps, h⟩ := h
    have hst := h.st
    cases hs : f.state with
    | computeP i inner aOut =>
      rw [hs] at hst
      obtain ⟨m, k, sl, rfl, ha⟩ := hst
      have := ha.lt
      simp [InnerPrf.isDone, ReducedFn.isDone, InnerPrf.todo, hs]; omega
    | computeA i s m => rw [hs] at hst; exact hst.elim
    | _ => simp [InnerPrf.isDone, ReducedFn.isDone, InnerPrf.todo, hs]

/-! ## Allocation -/

/-- The inputs of the `A` hashes in the order in which they are used, from the first free input on. -/
def slotIds : Nat → Nat → List Nat
  | 0, _ => []
  | n + 1, b => slotIds n (b + 2) ++ [b]

theorem slotIds_length (n b : Nat) : (slotIds n b).length = n := by
  induction n generalizing b with
  | zero => rfl
  | succ n ih => simp [slotIds, ih]

theorem slotIds_mem {n b id : Nat} (h : id ∈ slotIds n b) : ∃ j, j < n ∧ id = b + 2 * j := by
  induction n generalizing b with
  | zero => cases h
  | succ n ih =>
    rcases List.mem_append.mp h with h | h
    · obtain ⟨j, hj, rfl⟩ := ih h
      exact ⟨j + 1, by omega, by omega⟩
    · exact ⟨0, by omega, by simpa using h⟩

theorem slotIds_nodup (n b : Nat) : (slotIds n b).Nodup := by
  induction n generalizing b with
  | zero => exact List.nodup_nil
  | succ n ih =>
    refine List.nodup_append.mpr ⟨ih _, List.nodup_singleton _, ?_⟩
    intro x hx y hy
    obtain ⟨j, _, rfl⟩ := slotIds_mem hx
    rw [List.mem_singleton.mp hy]; omega

theorem reducedLoop_eq (S : Sha) (key : VecRef) (n : Nat) (vm : Vm) (a p : List ReducedHash) :
    reducedLoop S (computePartial S key opad) n vm a p =
      ({ vm with next := vm.next + 2 * n }, (slotIds n vm.next).map (slotHash S key) ++ a,
        (slotIds n (vm.next + 1)).map (slotHash S key) ++ p) := by
  induction n generalizing vm a p with
  | zero => rfl
  | succ n ih =>
    have := ih { vm with next := vm.next + 1 + 1 } (slotHash S key vm.next :: a) (slotHash S key (vm.next + 1) :: p)
    refine Eq.trans this ?_
    have e : vm.next + 1 + 1 + 2 * n = vm.next + 2 * (n + 1) := by omega
    simp only [slotIds, List.map_append, List.map_cons, List.map_nil, List.append_assoc, List.singleton_append, e]

/-- A function that has just been allocated. -/
theorem alloc_inv (S : Sha) (vm : Vm) (net : NetworkMode) (label : Bytes) (key : VecRef) (outLen seedLen : Nat)
    (hfresh : ∀ id, vm.next ≤ id → vm.committed id = none) (vm' : Vm) (f : InnerPrf)
    (h : InnerPrf.alloc S vm net label (computePartial S key opad) (computePartial S key ipad) outLen seedLen = (vm', f)) :
    vm.next ≤ vm'.next ∧ vm'.committed = vm.committed ∧ vm'.executed = vm.executed ∧ f.seed = none ∧ f.label = label ∧
      f.isDone = false ∧ f.output.length = (outLen + 31) / 32 ∧
      FnInv S ⟨key, f.output, (outLen + 31) / 32, vm.next, vm'.next, label.length + seedLen⟩ vm' f := by
  cases net with
  | normal =>
    cases h
    refine ⟨by simp, rfl, rfl, rfl, rfl, rfl, ?_, ?_⟩
    · simp [InnerPrf.output, (normalLoop_length _ _ _ _ _ _).2]
    · refine ⟨vm.next, Nat.le_refl _, by simp, rfl, rfl, rfl, (by intro h; cases h), ?_⟩
      intro _; exact hfresh _ (Nat.le_refl _)
  | reduced =>
    simp only [InnerPrf.alloc, ReducedFn.alloc, reducedLoop_eq, List.append_nil] at h
    cases h
    refine ⟨by simp, rfl, rfl, rfl, rfl, rfl, ?_, ?_⟩
    · simp [InnerPrf.output, slotIds_length]
    · refine ⟨slotIds ((outLen + 31) / 32) vm.next, slotIds ((outLen + 31) / 32) (vm.next + 1), ⟨?_, ?_, ?_, ?_, ?_⟩, rfl, ?_⟩
      · exact slotIds_length _ _
      · exact slotIds_length _ _
      · refine List.nodup_append.mpr ⟨slotIds_nodup _ _, slotIds_nodup _ _, ?_⟩
        intro x hx y hy
        obtain ⟨j, _, rfl⟩ := slotIds_mem hx
        obtain ⟨i, _, rfl⟩ := slotIds_mem hy
        omega
      · intro id hid
        rcases List.mem_append.mp hid with hid | hid <;> obtain ⟨j, hj, rfl⟩ := slotIds_mem hid <;>
          exact ⟨by show vm.next ≤ _; omega, by show _ < vm.next + _; omega⟩
      · simp [InnerPrf.output]
      · refine ⟨rfl, rfl, rfl, ?_⟩
        intro id hid
        apply hfresh
        rcases List.mem_append.mp hid with hid | hid <;> obtain ⟨j, hj, rfl⟩ := slotIds_mem hid <;> omega

end Tlsn.Hmac
