import Verif.Prf.Inv

/-! # The whole PRF: allocation, calls in any order, and the loop that flushes it -/

namespace Tlsn.Hmac

/-- Everything that happens to a PRF and the machine after allocation: the calls of its users, flushes, runs of the machine,
and inputs that other components allocate and assign. -/
inductive PrfOp where
  | clientRandom (r : Bytes)
  | serverRandom (r : Bytes)
  | sessionHash (h : Bytes)
  | cfHash (h : Bytes)
  | sfHash (h : Bytes)
  | flush
  | execute
  | alloc (len : Nat)
  | other (id : Nat) (v : Bytes)

/-- One step; an error ends the history. -/
def PrfOp.step (S : Sha) (s : Prf × Vm) : PrfOp → Outcome PrfError (Prf × Vm)
  | .clientRandom r => .ok (s.1.setClientRandom r, s.2)
  | .serverRandom r => s.1.setServerRandom r >>= fun p => .ok (p, s.2)
  | .sessionHash h => s.1.setSessionHash h >>= fun p => .ok (p, s.2)
  | .cfHash h => s.1.setCfHash h >>= fun p => .ok (p, s.2)
  | .sfHash h => s.1.setSfHash h >>= fun p => .ok (p, s.2)
  | .flush => s.1.flush S s.2
  | .execute => .ok (s.1, s.2.execute)
  | .alloc len => .ok (s.1, (s.2.alloc len).1)
  | .other id v => s.2.assign ⟨some id, v.length, Ref.input id v.length⟩ v >>= fun vm => .ok (s.1, vm)

/-- A history. -/
def runOps (S : Sha) : List PrfOp → Prf × Vm → Outcome PrfError (Prf × Vm)
  | [], s => .ok s
  | op :: ops, s => op.step S s >>= runOps S ops

/-- The values a history passes to each call, in order. -/
def clientRandoms (ops : List PrfOp) : List Bytes := ops.filterMap fun | .clientRandom r => some r | _ => none
def serverRandoms (ops : List PrfOp) : List Bytes := ops.filterMap fun | .serverRandom r => some r | _ => none
def sessionHashes (ops : List PrfOp) : List Bytes := ops.filterMap fun | .sessionHash r => some r | _ => none
def cfHashes (ops : List PrfOp) : List Bytes := ops.filterMap fun | .cfHash r => some r | _ => none
def sfHashes (ops : List PrfOp) : List Bytes := ops.filterMap fun | .sfHash r => some r | _ => none

/-- Every value is set at most once. -/
structure SetOnce (ops : List PrfOp) : Prop where
  cr : (clientRandoms ops).length ≤ 1
  sr : (serverRandoms ops).length ≤ 1
  sh : (sessionHashes ops).length ≤ 1
  cf : (cfHashes ops).length ≤ 1
  sf : (sfHashes ops).length ≤ 1

/-- Other components use other inputs. -/
def Apart (lo hi : Nat) (ops : List PrfOp) : Prop := ∀ id v, PrfOp.other id v ∈ ops → id < lo ∨ hi ≤ id

/-! ## The invariant of the four functions -/

/-- The fixed parts of the four functions. -/
structure PrfCtx where
  lo : Nat
  hi : Nat
  secret : VecRef
  ms : VecRef
  cm : Option FnCtx
  ck : FnCtx
  cc : FnCtx
  cs : FnCtx

structure PrfCtx.Ok (C : PrfCtx) : Prop where
  ck : C.ck.Ok
  cc : C.cc.Ok
  cs : C.cs.Ok
  cm : ∀ c, C.cm = some c → c.Ok ∧ c.key = C.secret ∧ c.n = 2 ∧ c.outs.length = 2 ∧ C.lo ≤ c.lo ∧ c.hi ≤ C.ck.lo ∧
    C.ms.val = (concatRefs c.outs).map (·.take 48)
  direct : C.cm = none → C.ms = C.secret
  keys : C.ck.key = C.ms ∧ C.cc.key = C.ms ∧ C.cs.key = C.ms
  ns : C.ck.n = 2 ∧ C.cc.n = 1 ∧ C.cs.n = 1
  lens : C.ck.outs.length = 2 ∧ C.cc.outs.length = 1 ∧ C.cs.outs.length = 1
  order : C.lo ≤ C.ck.lo ∧ C.ck.lo ≤ C.ck.hi ∧ C.ck.hi ≤ C.cc.lo ∧ C.cc.lo ≤ C.cc.hi ∧ C.cc.hi ≤ C.cs.lo ∧
    C.cs.lo ≤ C.cs.hi ∧ C.cs.hi ≤ C.hi

/-- The invariant of the master secret, if it is derived. -/
def MsInv (S : Sha) (vm : Vm) : Option FnCtx → Option InnerPrf → Prop
  | some c, some f => FnInv S c vm f
  | none, none => True
  | _, _ => False

structure FnsInv (S : Sha) (C : PrfCtx) (vm : Vm) (g : PrfFns) : Prop where
  ms : MsInv S vm C.cm g.masterSecret
  ke : FnInv S C.ck vm g.keyExpansion
  cf : FnInv S C.cc vm g.clientFinished
  sf : FnInv S C.cs vm g.serverFinished

theorem MsInv.frame {S : Sha} {vm vm' : Vm} {c : Option FnCtx} {f : Option InnerPrf} (h : MsInv S vm c f)
    (hk : ∀ c', c = some c' → Keeps c'.lo c'.hi vm vm') : MsInv S vm' c f := by
  cases c <;> cases f <;> try exact h
  exact FnInv.frame h (hk _ rfl)

theorem FnsInv.frame {S : Sha} {C : PrfCtx} (hC : C.Ok) {vm vm' : Vm} {g : PrfFns} (h : FnsInv S C vm g)
    (hk : Keeps C.lo C.hi vm vm') : FnsInv S C vm' g := by
  have ho := hC.order
  have sub : ∀ lo hi, C.lo ≤ lo → hi ≤ C.hi → Keeps lo hi vm vm' := fun lo hi h1 h2 =>
    ⟨fun id h3 h4 => hk.committed id (by omega) (by omega), hk.executed⟩
  refine ⟨h.ms.frame ?_, h.ke.frame (sub _ _ ?_ ?_), h.cf.frame (sub _ _ ?_ ?_), h.sf.frame (sub _ _ ?_ ?_)⟩
  · intro c hc
    have := hC.cm c hc
    exact sub _ _ (by omega) (by omega)
  all_goals omega

/-- The body of crates/components/hmac-sha256/src/prf.rs:309-352 `flush`, without the change of state. -/
def PrfFns.flush (S : Sha) (g : PrfFns) (vm : Vm) : Outcome PrfError (PrfFns × Vm) :=
  flushOption S vm g.masterSecret >>= fun (ms, vm1) =>
  g.keyExpansion.flushIfWanted S vm1 >>= fun (ke, vm2) =>
  g.clientFinished.flushIfWanted S vm2 >>= fun (cf, vm3) =>
  g.serverFinished.flushIfWanted S vm3 >>= fun (sf, vm4) => .ok (⟨ms, ke, cf, sf⟩, vm4)

/-- All functions are done. -/
def PrfFns.isDone (g : PrfFns) : Bool :=
  g.masterSecret.all (·.isDone) && g.keyExpansion.isDone && g.clientFinished.isDone && g.serverFinished.isDone

theorem prf_flush_setup (S : Sha) (prf : Prf) (vm : Vm) (g : PrfFns) (h : prf.state = .setup g) :
    prf.flush S vm = (g.flush S vm >>= fun r =>
      .ok ({ prf with state := if r.1.isDone then .complete else .setup r.1 }, r.2)) := by
  unfold Prf.flush PrfFns.flush
  rw [h]
  simp only
  cases flushOption S vm g.masterSecret with
  | err e => rfl
  | panic => rfl
  | ok r1 =>
    obtain ⟨ms, vm1⟩ := r1
    simp only [Outcome.bind_ok]
    cases g.keyExpansion.flushIfWanted S vm1 with
    | err e => rfl
    | panic => rfl
    | ok r2 =>
      obtain ⟨ke, vm2⟩ := r2
      simp only [Outcome.bind_ok]
      cases g.clientFinished.flushIfWanted S vm2 with
      | err e => rfl
      | panic => rfl
      | ok r3 =>
        obtain ⟨cf, vm3⟩ := r3
        simp only [Outcome.bind_ok]
        cases g.serverFinished.flushIfWanted S vm3 with
        | err e => rfl
        | panic => rfl
        | ok r4 =>
          obtain ⟨sf, vm4⟩ := r4
          simp only [Outcome.bind_ok]
          by_cases hd : PrfFns.isDone ⟨ms, ke, cf, sf⟩ = true
          · rw [if_pos hd]; exact if_pos hd
          · rw [if_neg hd]; exact if_neg hd

/-- The work that is left. -/
def PrfFns.todo (g : PrfFns) : Nat :=
  (g.masterSecret.map (·.todo 2)).getD 0 + g.keyExpansion.todo 2 + g.clientFinished.todo 1 + g.serverFinished.todo 1

/-- The seeds have the lengths the machine expects. -/
structure PrfFns.SeedsFit (C : PrfCtx) (g : PrfFns) : Prop where
  ms : ∀ c f, C.cm = some c → g.masterSecret = some f → f.SeedFits c
  ke : g.keyExpansion.SeedFits C.ck
  cf : g.clientFinished.SeedFits C.cc
  sf : g.serverFinished.SeedFits C.cs

/-- The seeds and labels of two states are the same. -/
structure SameSeeds (g g' : PrfFns) : Prop where
  ms : g'.masterSecret.map (fun f => (f.seed, f.label)) = g.masterSecret.map (fun f => (f.seed, f.label))
  ke : g'.keyExpansion.seed = g.keyExpansion.seed ∧ g'.keyExpansion.label = g.keyExpansion.label
  cf : g'.clientFinished.seed = g.clientFinished.seed ∧ g'.clientFinished.label = g.clientFinished.label
  sf : g'.serverFinished.seed = g.serverFinished.seed ∧ g'.serverFinished.label = g.serverFinished.label

def PrfFns.wantsFlush (g : PrfFns) : Bool :=
  g.masterSecret.any (·.wantsFlush) || g.keyExpansion.wantsFlush || g.clientFinished.wantsFlush ||
      g.serverFinished.wantsFlush

/-- What one flush does. -/
structure FnsFlushed (S : Sha) (C : PrfCtx) (g g' : PrfFns) (vm vm' : Vm) : Prop where
  inv : FnsInv S C vm' g'
  seeds : SameSeeds g g'
  owns : Owns C.lo C.hi vm vm'
  ms : ∀ f f', g.masterSecret = some f → g'.masterSecret = some f' → f'.todo 2 ≤ f.todo 2 ∧
    (f.wantsFlush = true → vm.executed = vm.committed → (∃ k, C.secret.val.run vm.executed = some k) → f'.todo 2 < f.todo 2)
  ke : g'.keyExpansion.todo 2 ≤ g.keyExpansion.todo 2 ∧ (g.keyExpansion.wantsFlush = true → vm.executed = vm.committed →
    (∃ k, C.ms.val.run vm.executed = some k) → g'.keyExpansion.todo 2 < g.keyExpansion.todo 2)
  cf : g'.clientFinished.todo 1 ≤ g.clientFinished.todo 1 ∧ (g.clientFinished.wantsFlush = true → vm.executed = vm.committed →
    (∃ k, C.ms.val.run vm.executed = some k) → g'.clientFinished.todo 1 < g.clientFinished.todo 1)
  sf : g'.serverFinished.todo 1 ≤ g.serverFinished.todo 1 ∧ (g.serverFinished.wantsFlush = true → vm.executed = vm.committed →
    (∃ k, C.ms.val.run vm.executed = some k) → g'.serverFinished.todo 1 < g.serverFinished.todo 1)

theorem Owns.widen {lo hi lo' hi' : Nat} {a b : Vm} (h : Owns lo hi a b) (h1 : lo' ≤ lo) (h2 : hi ≤ hi') :
    Owns lo' hi' a b := ⟨fun id hid => h.outside id (by omega), h.le, h.executed, h.next⟩

theorem flushOption_ok {S : Sha} {vm : Vm} (hle : vm.executed.Le vm.committed) {c : Option FnCtx} {f : Option InnerPrf}
    (hc : ∀ c', c = some c' → c'.Ok) (h : MsInv S vm c f) :
    (∀ f' vm', flushOption S vm f = .ok (f', vm') →
      (f = none ∧ f' = none ∧ vm' = vm ∧ c = none) ∨
      ∃ c1 f1 f2, c = some c1 ∧ f = some f1 ∧ f' = some f2 ∧ Flushed S c1 f1 f2 vm vm') ∧
    ((∀ c1 f1, c = some c1 → f = some f1 → f1.SeedFits c1) → ∃ f' vm', flushOption S vm f = .ok (f', vm')) := by
  cases c with
  | none =>
    cases f with
    | some f => exact h.elim
    | none =>
      refine ⟨?_, fun _ => ⟨_, _, rfl⟩⟩
      intro f' vm' h'
      cases h'
      exact Or.inl ⟨rfl, rfl, rfl, rfl⟩
  | some c =>
    cases f with
    | none => exact h.elim
    | some f =>
      obtain ⟨h1, h2⟩ := FnInv.flushIfWanted (hc c rfl) hle h
      constructor
      · intro f' vm' h'
        obtain ⟨r, hr, h'⟩ := Outcome.bind_eq_ok.mp h'
        cases h'
        exact Or.inr ⟨c, f, r.1, rfl, rfl, rfl, h1 r.1 r.2 hr⟩
      · intro hs
        obtain ⟨f', vm', h'⟩ := h2 (hs c f rfl rfl)
        refine ⟨some f', vm', ?_⟩
        show (f.flushIfWanted S vm >>= _) = _
        rw [h']; rfl

theorem fns_flush {S : Sha} {C : PrfCtx} (hC : C.Ok) {vm : Vm} (hle : vm.executed.Le vm.committed) {g : PrfFns}
    (h : FnsInv S C vm g) :
    (∀ g' vm', g.flush S vm = .ok (g', vm') → FnsFlushed S C g g' vm vm') ∧
    (g.SeedsFit C → ∃ g' vm', g.flush S vm = .ok (g', vm')) := by
  have ho := hC.order
  obtain ⟨m1, m2⟩ := flushOption_ok hle (fun c hc => (hC.cm c hc).1) h.ms
  -- what happens to the machine during the first step
  have msOwn : ∀ f' vm', flushOption S vm g.masterSecret = .ok (f', vm') →
      Owns C.lo C.ck.lo vm vm' := by
    intro f' vm' h'
    rcases m1 f' vm' h' with ⟨_, _, rfl, _⟩ | ⟨c1, f1, f2, hc1, _, _, hf⟩
    · exact Owns.refl _ _ _
    · have := hC.cm c1 hc1
      exact hf.owns.widen (by omega) (by omega)
  have le' : ∀ {lo hi : Nat} {vm1 vm2 : Vm}, vm1.executed.Le vm1.committed → Owns lo hi vm1 vm2 → vm2.executed.Le vm2.committed := by
    intro lo hi vm1 vm2 h1 h2
    rw [h2.executed]; exact h1.trans h2.le
  constructor
  · intro g' vm' hfl
    obtain ⟨⟨ms, vm1⟩, hm, hfl⟩ := Outcome.bind_eq_ok.mp hfl
    obtain ⟨⟨ke, vm2⟩, hk, hfl⟩ := Outcome.bind_eq_ok.mp hfl
    obtain ⟨⟨cf, vm3⟩, hcf, hfl⟩ := Outcome.bind_eq_ok.mp hfl
    obtain ⟨⟨sf, vm4⟩, hsf, hfl⟩ := Outcome.bind_eq_ok.mp hfl
    cases hfl
    have o1 := msOwn ms vm1 hm
    have l1 := le' hle o1
    have fk := (FnInv.flushIfWanted hC.ck l1 (h.ke.frame (o1.keeps (by omega)))).1 ke vm2 hk
    have l2 := le' l1 fk.owns
    have o12 : Owns C.lo C.ck.hi vm vm2 := (o1.widen (Nat.le_refl _) (by omega)).trans (fk.owns.widen (by omega) (by omega))
    have fc := (FnInv.flushIfWanted hC.cc l2 (h.cf.frame (o12.keeps (by omega)))).1 cf vm3 hcf
    have l3 := le' l2 fc.owns
    have o13 : Owns C.lo C.cc.hi vm vm3 := (o12.widen (by omega) (by omega)).trans (fc.owns.widen (by omega) (by omega))
    have fs := (FnInv.flushIfWanted hC.cs l3 (h.sf.frame (o13.keeps (by omega)))).1 sf vm' hsf
    have o14 : Owns C.lo C.cs.hi vm vm' := (o13.widen (by omega) (by omega)).trans (fs.owns.widen (by omega) (by omega))
    have o24 : Owns C.ck.lo C.cs.hi vm1 vm' := (fk.owns.widen (by omega) (by omega)).trans
      ((fc.owns.widen (by omega) (by omega)).trans (fs.owns.widen (by omega) (by omega)))
    have o34 : Owns C.cc.lo C.cs.hi vm2 vm' := (fc.owns.widen (by omega) (by omega)).trans (fs.owns.widen (by omega) (by omega))
    obtain ⟨n1, n2, n3⟩ := hC.ns
    obtain ⟨k1, k2, k3⟩ := hC.keys
    have sync : ∀ {lo hi lo' hi' : Nat} {va : Vm}, Owns lo hi vm va → hi ≤ lo' → vm.executed = vm.committed →
        InSync lo' hi' va := by
      intro lo hi lo' hi' va ho hd he id h1 h2
      rw [ho.executed, ho.outside id (by omega), he]
    refine ⟨⟨?_, ?_, ?_, ?_⟩, ⟨?_, ⟨fk.seed, fk.label⟩, ⟨fc.seed, fc.label⟩, ⟨fs.seed, fs.label⟩⟩, o14.widen (by omega) (by omega),
      ?_, ?_, ?_, ?_⟩
    · rcases m1 ms vm1 hm with ⟨h1, h2, _, h3⟩ | ⟨c1, f1, f2, hc1, hf1, hf2, hf⟩
      · show MsInv S vm' C.cm ms
        rw [h2, h3]; trivial
      · show MsInv S vm' C.cm ms
        rw [hc1, hf2]
        have := hC.cm c1 hc1
        exact FnInv.frame hf.inv (o24.keeps (by omega))
    · exact fk.inv.frame (o34.keeps (by omega))
    · exact fc.inv.frame (fs.owns.keeps (by omega))
    · exact fs.inv
    · rcases m1 ms vm1 hm with ⟨h1, h2, _, h3⟩ | ⟨c1, f1, f2, hc1, hf1, hf2, hf⟩
      · show ms.map _ = _
        rw [h1, h2]
      · show ms.map _ = _
        rw [hf1, hf2, Option.map_some, Option.map_some, hf.seed, hf.label]
    · intro f f' hf hf'
      rcases m1 ms vm1 hm with ⟨h1, _⟩ | ⟨c1, f1, f2, hc1, hf1, hf2, hfl⟩
      · rw [h1] at hf; cases hf
      · have e1 : f1 = f := Option.some.inj (hf1.symm.trans hf)
        have e2 : f2 = f' := Option.some.inj (hf2.symm.trans hf')
        obtain ⟨_, q2, q3, _⟩ := hC.cm c1 hc1
        subst e1 e2
        have l := hfl.le
        have t := hfl.lt
        rw [q3] at l t
        rw [q2] at t
        exact ⟨l, fun w he k => t w (fun id _ _ => congrFun he id) k⟩
    · have l := fk.le
      have t := fk.lt
      rw [n1] at l t
      rw [k1, o1.executed] at t
      exact ⟨l, fun w he k => t w (sync o1 (Nat.le_refl _) he) k⟩
    · have l := fc.le
      have t := fc.lt
      rw [n2] at l t
      rw [k2, o12.executed] at t
      exact ⟨l, fun w he k => t w (sync o12 (by omega) he) k⟩
    · have l := fs.le
      have t := fs.lt
      rw [n3] at l t
      rw [k3, o13.executed] at t
      exact ⟨l, fun w he k => t w (sync o13 (by omega) he) k⟩
  · intro hs
    obtain ⟨ms, vm1, hm⟩ := m2 hs.ms
    have o1 := msOwn ms vm1 hm
    have l1 := le' hle o1
    have ik := FnInv.flushIfWanted hC.ck l1 (h.ke.frame (o1.keeps (by omega)))
    obtain ⟨ke, vm2, hk⟩ := ik.2 hs.ke
    have fk := ik.1 ke vm2 hk
    have l2 := le' l1 fk.owns
    have o12 : Owns C.lo C.ck.hi vm vm2 := (o1.widen (Nat.le_refl _) (by omega)).trans (fk.owns.widen (by omega) (by omega))
    have ic := FnInv.flushIfWanted hC.cc l2 (h.cf.frame (o12.keeps (by omega)))
    obtain ⟨cf, vm3, hcf⟩ := ic.2 hs.cf
    have fc := ic.1 cf vm3 hcf
    have l3 := le' l2 fc.owns
    have o13 : Owns C.lo C.cc.hi vm vm3 := (o12.widen (by omega) (by omega)).trans (fc.owns.widen (by omega) (by omega))
    obtain ⟨sf, vm4, hsf⟩ := (FnInv.flushIfWanted hC.cs l3 (h.sf.frame (o13.keeps (by omega)))).2 hs.sf
    refine ⟨⟨ms, ke, cf, sf⟩, vm4, ?_⟩
    unfold PrfFns.flush
    rw [hm]
    simp only [Outcome.bind_ok]
    rw [hk]
    simp only [Outcome.bind_ok]
    rw [hcf]
    simp only [Outcome.bind_ok]
    rw [hsf]
    simp only [Outcome.bind_ok]

/-! ## Allocation -/

theorem normalLoop_sized (S : Sha) (outer inner : ShaRef) (seedRef : VecRef) (n : Nat) (m : VecRef) (p : NormalHash)
    (hp : p ∈ (normalLoop S outer inner seedRef n m).2) : p.output.Sized ∧ p.output.len = 32 := by
  induction n generalizing m with
  | zero => simp [normalLoop] at hp
  | succ n ih =>
    rcases List.mem_cons.mp hp with rfl | hp
    · exact ⟨hmacRef_sized _ _ _, rfl⟩
    · exact ih _ hp

theorem alloc_sized (S : Sha) (vm : Vm) (net : NetworkMode) (label : Bytes) (key : VecRef) (outLen seedLen : Nat)
    (vm' : Vm) (f : InnerPrf)
    (h : InnerPrf.alloc S vm net label (computePartial S key opad) (computePartial S key ipad) outLen seedLen = (vm', f))
    (o : VecRef) (ho : o ∈ f.output) : o.Sized ∧ o.len = 32 := by
  cases net with
  | normal =>
    cases h
    obtain ⟨p, hp, rfl⟩ := List.mem_map.mp ho
    exact normalLoop_sized _ _ _ _ _ _ _ hp
  | reduced =>
    simp only [InnerPrf.alloc, ReducedFn.alloc, reducedLoop_eq, List.append_nil] at h
    cases h
    obtain ⟨p, hp, rfl⟩ := List.mem_map.mp ho
    obtain ⟨i, _, rfl⟩ := List.mem_map.mp hp
    exact ⟨hmacRef_sized _ _ _, rfl⟩

/-- A machine whose next inputs have no values yet and that has seen only committed inputs. -/
structure Vm.Fresh (vm : Vm) : Prop where
  unused : ∀ id, vm.next ≤ id → vm.committed id = none
  le : vm.executed.Le vm.committed

/-- The state between calls. -/
structure PrfInv (S : Sha) (C : PrfCtx) (s : Prf × Vm) (g : PrfFns) : Prop where
  fns : FnsInv S C s.2 g
  le : s.2.executed.Le s.2.committed
  state : s.1.state = .setup g ∨ (s.1.state = .complete ∧ g.isDone = true)

/-- The labels of the functions. -/
structure Labels (mode : MsMode) (g : PrfFns) : Prop where
  ms : match mode, g.masterSecret with
    | .standard, some f => f.label = msLabel
    | .extended, some f => f.label = emsLabel
    | .direct, none => True
    | _, _ => False
  ke : g.keyExpansion.label = keyLabel
  cf : g.clientFinished.label = cfLabel
  sf : g.serverFinished.label = sfLabel

/-- The seed of the master secret that the calls made so far give. -/
def msSeed (ops : List PrfOp) : MsMode → Option Bytes
  | .standard => (serverRandoms ops).head?.bind fun sr => (clientRandoms ops).head?.map fun cr => msLabel ++ (cr ++ sr)
  | .extended => (sessionHashes ops).head?.map (emsLabel ++ ·)
  | .direct => none

/-- The seeds of the functions come from the calls made so far. -/
structure Link (mode : MsMode) (ops : List PrfOp) (p : Prf) (g : PrfFns) : Prop where
  config : p.config.ms = mode
  labels : Labels mode g
  cr : p.clientRandom = (clientRandoms ops).head?
  ke : g.keyExpansion.seed = (serverRandoms ops).head?.bind fun sr => (clientRandoms ops).head?.map fun cr => keyLabel ++ (sr ++ cr)
  ms : ∀ f, g.masterSecret = some f → f.seed = msSeed ops mode
  cf : g.clientFinished.seed = (cfHashes ops).head?.map (cfLabel ++ ·)
  sf : g.serverFinished.seed = (sfHashes ops).head?.map (sfLabel ++ ·)
  sr : (serverRandoms ops).head?.isSome = true → (clientRandoms ops).head?.isSome = true

/-- The outputs of the PRF in terms of the fixed parts. -/
structure OutputsOf (C : PrfCtx) (out : PrfOutput) : Prop where
  ck : getSessionKeys C.ck.outs = .ok out.keys
  cc : mergeOutputs C.cc.outs 12 = .ok out.cfVd
  cs : mergeOutputs C.cs.outs 12 = .ok out.sfVd

/-- Allocating the functions that follow the master secret. -/
theorem allocPostMs_inv (S : Sha) (cfg : PrfConfig) (vm0 vm : Vm) (hvm : vm.Fresh) (secret ms : VecRef)
    (hs : ms.Sized) (hl : ms.len ≤ 64) (cm : Option FnCtx) (f0 : Option InnerPrf) (hcm : MsInv S vm cm f0)
    (hcm' : ∀ c, cm = some c → c.Ok ∧ c.key = secret ∧ c.n = 2 ∧ c.outs.length = 2 ∧ vm0.next ≤ c.lo ∧ c.hi ≤ vm.next ∧
      ms.val = (concatRefs c.outs).map (·.take 48))
    (h0 : vm0.next ≤ vm.next) (hdir : cm = none → ms = secret) :
    ∃ (C : PrfCtx) (prf' : Prf) (vm' : Vm) (out : PrfOutput) (g : PrfFns),
      (Prf.new cfg).allocPostMs S vm ms f0 = .ok (prf', vm', out) ∧
      C.Ok ∧ C.lo = vm0.next ∧ C.hi = vm'.next ∧ C.secret = secret ∧ C.ms = ms ∧ C.cm = cm ∧
      C.ck.seedLen = 77 ∧ C.cc.seedLen = 47 ∧ C.cs.seedLen = 47 ∧
      PrfInv S C (prf', vm') g ∧ OutputsOf C out ∧ prf'.config = cfg ∧ prf'.clientRandom = none ∧ g.masterSecret = f0 ∧
      g.keyExpansion.label = keyLabel ∧ g.clientFinished.label = cfLabel ∧ g.serverFinished.label = sfLabel ∧
      g.keyExpansion.seed = none ∧ g.clientFinished.seed = none ∧ g.serverFinished.seed = none ∧
      vm'.committed = vm.committed ∧ vm'.executed = vm.executed := by
  generalize ha1 : InnerPrf.alloc S vm cfg.network keyLabel (computePartial S ms opad) (computePartial S ms ipad) 40 64 = r1
  obtain ⟨vm1, ke⟩ := r1
  generalize ha2 : InnerPrf.alloc S vm1 cfg.network cfLabel (computePartial S ms opad) (computePartial S ms ipad) 12 32 = r2
  obtain ⟨vm2, cf⟩ := r2
  generalize ha3 : InnerPrf.alloc S vm2 cfg.network sfLabel (computePartial S ms opad) (computePartial S ms ipad) 12 32 = r3
  obtain ⟨vm3, sf⟩ := r3
  obtain ⟨n1, c1, e1, s1, l1, _, len1, i1⟩ := alloc_inv S vm cfg.network keyLabel ms 40 64 hvm.unused vm1 ke ha1
  obtain ⟨n2, c2, e2, s2, l2, _, len2, i2⟩ := alloc_inv S vm1 cfg.network cfLabel ms 12 32
    (by intro id hid; rw [c1]; exact hvm.unused id (by omega)) vm2 cf ha2
  obtain ⟨n3, c3, e3, s3, l3, _, len3, i3⟩ := alloc_inv S vm2 cfg.network sfLabel ms 12 32
    (by intro id hid; rw [c2, c1]; exact hvm.unused id (by omega)) vm3 sf ha3
  rw [show keyLabel.length = 13 by decide +kernel] at i1
  rw [show cfLabel.length = 15 by decide +kernel] at i2
  rw [show sfLabel.length = 15 by decide +kernel] at i3
  have len1' : ke.output.length = 2 := len1
  have len2' : cf.output.length = 1 := len2
  have len3' : sf.output.length = 1 := len3
  obtain ⟨keys, hkeys⟩ : ∃ keys, getSessionKeys ke.output = .ok keys := by
    unfold getSessionKeys mergeOutputs
    rw [if_pos (by omega)]
    exact ⟨_, rfl⟩
  obtain ⟨cfv, hcfv⟩ : ∃ v, mergeOutputs cf.output 12 = .ok v := by
    unfold mergeOutputs
    rw [if_pos (by omega)]
    exact ⟨_, rfl⟩
  obtain ⟨sfv, hsfv⟩ : ∃ v, mergeOutputs sf.output 12 = .ok v := by
    unfold mergeOutputs
    rw [if_pos (by omega)]
    exact ⟨_, rfl⟩
  have hkeep : ∀ {va vb : Vm} (lo hi : Nat), vb.committed = va.committed → vb.executed = va.executed → Keeps lo hi va vb :=
    fun lo hi h1 h2 => ⟨fun _ _ _ => by rw [h1], by rw [h2]; exact Env.Le.refl _⟩
  refine ⟨⟨vm0.next, vm3.next, secret, ms, cm, ⟨ms, ke.output, 2, vm.next, vm1.next, 77⟩,
    ⟨ms, cf.output, 1, vm1.next, vm2.next, 47⟩, ⟨ms, sf.output, 1, vm2.next, vm3.next, 47⟩⟩,
    { Prf.new cfg with state := .setup ⟨f0, ke, cf, sf⟩ }, vm3, ⟨keys, cfv, sfv⟩, ⟨f0, ke, cf, sf⟩, ?_, ?_, rfl, rfl, rfl, rfl, rfl,
    rfl, rfl, rfl, ?_, ?_, rfl, rfl, rfl, l1, l2, l3, s1, s2, s3, ?_, ?_⟩
  · simp only [Prf.allocPostMs, show (Prf.new cfg).config.network = cfg.network from rfl, ha1, ha2, ha3, hkeys, hcfv, hsfv,
      Outcome.bind_ok]
  · refine ⟨⟨hs, hl, (by simp)⟩, ⟨hs, hl, (by simp)⟩, ⟨hs, hl, (by simp)⟩, ?_, hdir, ⟨rfl, rfl, rfl⟩, ⟨rfl, rfl, rfl⟩,
      ⟨len1', len2', len3'⟩, ?_⟩
    · intro c hc
      exact hcm' c hc
    · simp only
      omega
  · refine ⟨⟨?_, ?_, ?_, ?_⟩, ?_, Or.inl rfl⟩
    · exact hcm.frame fun c _ => hkeep _ _ (by rw [c3, c2, c1]) (by rw [e3, e2, e1])
    · exact FnInv.frame i1 (hkeep _ _ (by rw [c3, c2]) (by rw [e3, e2]))
    · exact FnInv.frame i2 (hkeep _ _ c3 e3)
    · exact i3
    · show vm3.executed.Le vm3.committed
      rw [e3, e2, e1, c3, c2, c1]; exact hvm.le
  · exact ⟨hkeys, hcfv, hsfv⟩
  · rw [c3, c2, c1]
  · rw [e3, e2, e1]

/-- The allocation that fits the configuration: crates/components/hmac-sha256/src/prf.rs:112-129 `alloc_ms` for a given master secret, crates/components/hmac-sha256/src/prf.rs:74-100 `alloc_pms`
otherwise. -/
def allocPrf (S : Sha) (cfg : PrfConfig) (vm : Vm) (secret : VecRef) : Outcome PrfError (Prf × Vm × PrfOutput) :=
  match cfg.ms with
  | .direct => (Prf.new cfg).allocMs S vm secret
  | _ => (Prf.new cfg).allocPms S vm secret

/-- The length of the seed of the master secret. -/
def msSeedLen : MsMode → Nat
  | .standard => 77
  | .extended => 54
  | .direct => 0

theorem merge_two_sized (outs : List VecRef) (hl : outs.length = 2) (h : ∀ o ∈ outs, o.Sized ∧ o.len = 32) :
    (⟨none, 48, (concatRefs outs).map (·.take 48)⟩ : VecRef).Sized := by
  intro e v hv
  obtain ⟨w, hw, rfl⟩ := Option.map_eq_some_iff.mp hv
  have := concatRefs_length outs e w (fun r hr => (h r hr).1 e) hw
  have h64 : (outs.map (·.len)).sum = 64 := by
    match outs, hl, h with
    | [a, b], _, h => simp [(h a (by simp)).2, (h b (by simp)).2]
  simp [this, h64]

theorem allocPrf_ok (S : Sha) (cfg : PrfConfig) (vm : Vm) (hvm : vm.Fresh) (secret : VecRef) (hs : secret.Sized)
    (hl : secret.len ≤ 64) :
    ∃ (C : PrfCtx) (prf : Prf) (vm' : Vm) (out : PrfOutput) (g : PrfFns),
      allocPrf S cfg vm secret = .ok (prf, vm', out) ∧ C.Ok ∧ C.lo = vm.next ∧ C.hi = vm'.next ∧ C.secret = secret ∧
      (C.cm = none ↔ cfg.ms = .direct) ∧ (∀ c, C.cm = some c → c.seedLen = msSeedLen cfg.ms) ∧
      C.ck.seedLen = 77 ∧ C.cc.seedLen = 47 ∧ C.cs.seedLen = 47 ∧
      PrfInv S C (prf, vm') g ∧ OutputsOf C out ∧ Link cfg.ms [] prf g ∧
      vm'.committed = vm.committed ∧ vm'.executed = vm.executed := by
  have withMs : ∀ (label : Bytes) (n : Nat), 
      (cfg.ms = .standard ∧ label = msLabel ∧ label.length + n = 77 ∨ cfg.ms = .extended ∧ label = emsLabel ∧ label.length + n = 54) →
      (let r := InnerPrf.alloc S vm cfg.network label (computePartial S secret opad) (computePartial S secret ipad) 48 n
       allocPrf S cfg vm secret =
        (mergeOutputs r.2.output 48 >>= fun msRef => (Prf.new cfg).allocPostMs S r.1 msRef (some r.2))) →
      ∃ (C : PrfCtx) (prf : Prf) (vm' : Vm) (out : PrfOutput) (g : PrfFns),
        allocPrf S cfg vm secret = .ok (prf, vm', out) ∧ C.Ok ∧ C.lo = vm.next ∧ C.hi = vm'.next ∧ C.secret = secret ∧
        (C.cm = none ↔ cfg.ms = .direct) ∧ (∀ c, C.cm = some c → c.seedLen = msSeedLen cfg.ms) ∧
        C.ck.seedLen = 77 ∧ C.cc.seedLen = 47 ∧ C.cs.seedLen = 47 ∧
        PrfInv S C (prf, vm') g ∧ OutputsOf C out ∧ Link cfg.ms [] prf g ∧
        vm'.committed = vm.committed ∧ vm'.executed = vm.executed := by
    intro label n hlab
    generalize ha : InnerPrf.alloc S vm cfg.network label (computePartial S secret opad) (computePartial S secret ipad) 48 n = r
    obtain ⟨vm1, f⟩ := r
    intro heq
    obtain ⟨n1, c1, e1, s1, l1, _, len1, i1⟩ := alloc_inv S vm cfg.network label secret 48 n hvm.unused vm1 f ha
    have len1' : f.output.length = 2 := len1
    have hmerge : mergeOutputs f.output 48 = .ok ⟨none, 48, (concatRefs f.output).map (·.take 48)⟩ := by
      unfold mergeOutputs
      rw [if_pos (by omega)]
    simp only [hmerge, Outcome.bind_ok] at heq
    obtain ⟨C, prf', vm', out, g, h1, h2, h3, h4, h5, h6, h7, h8, h9, h10, h11, h12, h13, h14, h15, h16, h17, h18, h19, h20, h21,
      h22, h23⟩ :=
      allocPostMs_inv S cfg vm vm1 ⟨by intro id hid; rw [c1]; exact hvm.unused id (by omega), by rw [c1, e1]; exact hvm.le⟩
        secret ⟨none, 48, (concatRefs f.output).map (·.take 48)⟩
        (merge_two_sized _ len1' fun o ho => alloc_sized S vm cfg.network label secret 48 n vm1 f ha o ho)
        (by simp) (some ⟨secret, f.output, 2, vm.next, vm1.next, label.length + n⟩) (some f) i1
        (by
          intro c hc
          cases hc
          exact ⟨⟨hs, hl, by simp⟩, rfl, rfl, len1', Nat.le_refl _, Nat.le_refl _, rfl⟩) n1 (by intro h; cases h)
    refine ⟨C, prf', vm', out, g, heq.trans h1, h2, h3, h4, h5, ?_, ?_, h8, h9, h10, h11, h12, ?_, h22.trans c1, h23.trans e1⟩
    · rw [h7]
      rcases hlab with ⟨h, _⟩ | ⟨h, _⟩ <;> rw [h] <;> simp
    · intro c hc
      rw [h7] at hc
      cases hc
      rcases hlab with ⟨h, _, h'⟩ | ⟨h, _, h'⟩ <;> rw [h] <;> exact h'
    · refine ⟨by rw [h13], ⟨?_, h16, h17, h18⟩, by rw [h14]; rfl, by rw [h19]; rfl, ?_, by rw [h20]; rfl, by rw [h21]; rfl,
        by intro h; cases h⟩
      · rw [h15]
        rcases hlab with ⟨h, h', _⟩ | ⟨h, h', _⟩ <;> rw [h] <;> exact l1.trans h'
      · intro f' hf'
        rw [h15] at hf'
        cases hf'
        rw [s1]
        cases cfg.ms <;> rfl
  cases hm : cfg.ms with
  | standard =>
    rw [← hm]
    refine withMs msLabel 64 (Or.inl ⟨hm, rfl, by decide +kernel⟩) ?_
    simp only [allocPrf, hm, Prf.allocPms, Prf.new]
  | extended =>
    rw [← hm]
    refine withMs emsLabel 32 (Or.inr ⟨hm, rfl, by decide +kernel⟩) ?_
    simp only [allocPrf, hm, Prf.allocPms, Prf.new]
  | direct =>
    obtain ⟨C, prf', vm', out, g, h1, h2, h3, h4, h5, h6, h7, h8, h9, h10, h11, h12, h13, h14, h15, h16, h17, h18, h19, h20, h21,
      h22, h23⟩ := allocPostMs_inv S cfg vm vm hvm secret secret hs hl none none trivial (by intro c hc; cases hc)
        (Nat.le_refl _) (fun _ => rfl)
    refine ⟨C, prf', vm', out, g, ?_, h2, h3, h4, h5, by simp [h7], ?_, h8, h9, h10, h11, h12, ?_, h22, h23⟩
    · simp only [allocPrf, hm, Prf.allocMs, Prf.new]
      exact h1
    · intro c hc; rw [h7] at hc; cases hc
    · refine ⟨by rw [h13, hm], ⟨by rw [h15]; trivial, h16, h17, h18⟩, by rw [h14]; rfl, by rw [h19]; rfl, ?_, by rw [h20]; rfl,
        by rw [h21]; rfl, by intro h; cases h⟩
      intro f' hf'
      rw [h15] at hf'; cases hf'

/-! ## Histories -/

theorem setStartSeed_seed (f : InnerPrf) (s : Bytes) : (f.setStartSeed s).seed = some (f.label ++ s) := by cases f <;> rfl
theorem setStartSeed_label (f : InnerPrf) (s : Bytes) : (f.setStartSeed s).label = f.label := by cases f <;> rfl
theorem setStartSeed_isDone (f : InnerPrf) (s : Bytes) : (f.setStartSeed s).isDone = f.isDone := by cases f <;> rfl

theorem head_none_of_once {α : Type} {l l' : List α} {x : α} (h : (l ++ (x :: l')).length ≤ 1) : l = [] := by
  cases l with
  | nil => rfl
  | cons a l => simp at h

theorem execute_keeps (vm : Vm) (lo hi : Nat) (h : vm.executed.Le vm.committed) : Keeps lo hi vm vm.execute :=
  ⟨fun _ _ _ => rfl, h⟩

theorem PrfInv.execute {S : Sha} {C : PrfCtx} (hC : C.Ok) {p : Prf} {vm : Vm} {g : PrfFns} (h : PrfInv S C (p, vm) g) :
    PrfInv S C (p, vm.execute) g :=
  ⟨h.fns.frame hC (execute_keeps vm _ _ h.le), Env.Le.refl _, h.state⟩

theorem SameSeeds.labels {g g' : PrfFns} (h : SameSeeds g g') {mode : MsMode} (hl : Labels mode g) : Labels mode g' := by
  refine ⟨?_, h.ke.2.trans hl.ke, h.cf.2.trans hl.cf, h.sf.2.trans hl.sf⟩
  have h1 := hl.ms
  have h2 := h.ms
  revert h1 h2
  cases g.masterSecret <;> cases g'.masterSecret <;> cases mode <;> simp <;> intro a b c <;> simp_all

theorem SameSeeds.link {g g' : PrfFns} (h : SameSeeds g g') {mode : MsMode} {ops : List PrfOp} {p p' : Prf}
    (hl : Link mode ops p g) (hc : p'.config = p.config) (hr : p'.clientRandom = p.clientRandom) : Link mode ops p' g' := by
  refine ⟨by rw [hc, hl.config], h.labels hl.labels, by rw [hr, hl.cr], h.ke.1.trans hl.ke, ?_, h.cf.1.trans hl.cf,
    h.sf.1.trans hl.sf, hl.sr⟩
  intro f hf
  have h2 := h.ms
  rw [hf, Option.map_some] at h2
  obtain ⟨f0, hf0, he⟩ := Option.map_eq_some_iff.mp h2.symm
  have := hl.ms f0 hf0
  rw [← this]
  exact (congrArg Prod.fst he).symm

theorem SameSeeds.refl (g : PrfFns) : SameSeeds g g := ⟨rfl, ⟨rfl, rfl⟩, ⟨rfl, rfl⟩, ⟨rfl, rfl⟩⟩

/-- One flush of the PRF. -/
theorem prf_flush_inv {S : Sha} {C : PrfCtx} (hC : C.Ok) {p : Prf} {vm : Vm} {g : PrfFns} (h : PrfInv S C (p, vm) g)
    {p' : Prf} {vm' : Vm} (hf : p.flush S vm = .ok (p', vm')) :
    ∃ g', PrfInv S C (p', vm') g' ∧ SameSeeds g g' ∧ Owns C.lo C.hi vm vm' ∧ p'.config = p.config ∧
      p'.clientRandom = p.clientRandom ∧ (p.state = .setup g → FnsFlushed S C g g' vm vm' ∧
        p'.state = if g'.isDone then .complete else .setup g') := by
  rcases h.state with hs | ⟨hs, hd⟩
  · rw [prf_flush_setup S p vm g hs] at hf
    obtain ⟨⟨g', vm''⟩, hg, hf⟩ := Outcome.bind_eq_ok.mp hf
    cases hf
    have hfl := (fns_flush hC h.le h.fns).1 g' vm'' hg
    refine ⟨g', ⟨hfl.inv, ?_, ?_⟩, hfl.seeds, hfl.owns, rfl, rfl, fun _ => ⟨hfl, rfl⟩⟩
    · show vm''.executed.Le vm''.committed
      rw [hfl.owns.executed]; exact h.le.trans hfl.owns.le
    · show (if g'.isDone then PrfState.complete else .setup g') = _ ∨ _
      by_cases hd : g'.isDone = true
      · right; exact ⟨if_pos hd, hd⟩
      · left; exact if_neg hd
  · have : p.flush S vm = .ok (p, vm) := by unfold Prf.flush; simp only at hs; rw [hs]
    rw [this] at hf
    cases hf
    refine ⟨g, h, SameSeeds.refl g, Owns.refl _ _ _, rfl, rfl, ?_⟩
    intro h'
    simp only at hs
    rw [hs] at h'; cases h'

theorem SetOnce.prefix {a b : List PrfOp} (h : SetOnce (a ++ b)) : SetOnce a := by
  obtain ⟨h1, h2, h3, h4, h5⟩ := h
  simp only [clientRandoms, serverRandoms, sessionHashes, cfHashes, sfHashes, List.filterMap_append, List.length_append] at *
  exact ⟨by simp only [clientRandoms]; omega, by simp only [serverRandoms]; omega, by simp only [sessionHashes]; omega,
    by simp only [cfHashes]; omega, by simp only [sfHashes]; omega⟩

theorem snoc_clientRandoms (ops : List PrfOp) (op : PrfOp) :
    clientRandoms (ops ++ [op]) = clientRandoms ops ++ clientRandoms [op] := List.filterMap_append ..
theorem snoc_serverRandoms (ops : List PrfOp) (op : PrfOp) :
    serverRandoms (ops ++ [op]) = serverRandoms ops ++ serverRandoms [op] := List.filterMap_append ..
theorem snoc_sessionHashes (ops : List PrfOp) (op : PrfOp) :
    sessionHashes (ops ++ [op]) = sessionHashes ops ++ sessionHashes [op] := List.filterMap_append ..
theorem snoc_cfHashes (ops : List PrfOp) (op : PrfOp) :
    cfHashes (ops ++ [op]) = cfHashes ops ++ cfHashes [op] := List.filterMap_append ..
theorem snoc_sfHashes (ops : List PrfOp) (op : PrfOp) :
    sfHashes (ops ++ [op]) = sfHashes ops ++ sfHashes [op] := List.filterMap_append ..

/-- A call that sets nothing. -/
theorem Link.skip {mode : MsMode} {ops : List PrfOp} {p : Prf} {g : PrfFns} (h : Link mode ops p g) (op : PrfOp)
    (h1 : clientRandoms [op] = []) (h2 : serverRandoms [op] = []) (h3 : sessionHashes [op] = []) (h4 : cfHashes [op] = [])
    (h5 : sfHashes [op] = []) : Link mode (ops ++ [op]) p g := by
  have e1 := snoc_clientRandoms ops op
  have e2 := snoc_serverRandoms ops op
  have e3 := snoc_sessionHashes ops op
  have e4 := snoc_cfHashes ops op
  have e5 := snoc_sfHashes ops op
  rw [h1, List.append_nil] at e1
  rw [h2, List.append_nil] at e2
  rw [h3, List.append_nil] at e3
  rw [h4, List.append_nil] at e4
  rw [h5, List.append_nil] at e5
  refine ⟨h.config, h.labels, by rw [e1]; exact h.cr, by rw [e1, e2]; exact h.ke, ?_, by rw [e4]; exact h.cf,
    by rw [e5]; exact h.sf, by rw [e1, e2]; exact h.sr⟩
  intro f hf
  rw [h.ms f hf]
  cases mode <;> simp only [msSeed, e1, e2, e3]

theorem step_inv {S : Sha} {C : PrfCtx} (hC : C.Ok) {mode : MsMode} {ops : List PrfOp} {op : PrfOp} {p p' : Prf} {vm vm' : Vm}
    {g : PrfFns} (h : PrfInv S C (p, vm) g) (hl : Link mode ops p g) (ho : SetOnce (ops ++ [op]))
    (ha : ∀ id v, op = .other id v → id < C.lo ∨ C.hi ≤ id) (hs : op.step S (p, vm) = .ok (p', vm')) :
    ∃ g', PrfInv S C (p', vm') g' ∧ Link mode (ops ++ [op]) p' g' := by
  cases op with
  | clientRandom r =>
    cases hs
    have h0 := ho.cr
    rw [snoc_clientRandoms] at h0
    have h0 := head_none_of_once h0
    have hsr : (serverRandoms ops).head? = none := by
      cases hh : (serverRandoms ops).head? with
      | none => rfl
      | some x =>
        have := hl.sr (by rw [hh]; rfl)
        rw [h0] at this; cases this
    have e2 : serverRandoms (ops ++ [.clientRandom r]) = serverRandoms ops := by rw [snoc_serverRandoms]; exact List.append_nil _
    have e3 : sessionHashes (ops ++ [.clientRandom r]) = sessionHashes ops := by rw [snoc_sessionHashes]; exact List.append_nil _
    have e4 : cfHashes (ops ++ [.clientRandom r]) = cfHashes ops := by rw [snoc_cfHashes]; exact List.append_nil _
    have e5 : sfHashes (ops ++ [.clientRandom r]) = sfHashes ops := by rw [snoc_sfHashes]; exact List.append_nil _
    have e1 : clientRandoms (ops ++ [.clientRandom r]) = [r] := by rw [snoc_clientRandoms, h0]; rfl
    refine ⟨g, ⟨h.fns, h.le, h.state⟩, ⟨hl.config, hl.labels, by rw [e1]; rfl, ?_, ?_, by rw [e4]; exact hl.cf,
      by rw [e5]; exact hl.sf, fun _ => by rw [e1]; rfl⟩⟩
    · rw [e2, hl.ke, hsr]; rfl
    · intro f hf
      rw [hl.ms f hf]
      cases mode <;> simp only [msSeed, e2, e3, hsr]
      rfl
  | serverRandom r =>
    obtain ⟨p1, hp1, hs⟩ := Outcome.bind_eq_ok.mp hs
    cases hs
    have h0 := ho.sr
    rw [snoc_serverRandoms] at h0
    have h0 := head_none_of_once h0
    have e1 : clientRandoms (ops ++ [.serverRandom r]) = clientRandoms ops := by rw [snoc_clientRandoms]; exact List.append_nil _
    have e3 : sessionHashes (ops ++ [.serverRandom r]) = sessionHashes ops := by rw [snoc_sessionHashes]; exact List.append_nil _
    have e4 : cfHashes (ops ++ [.serverRandom r]) = cfHashes ops := by rw [snoc_cfHashes]; exact List.append_nil _
    have e5 : sfHashes (ops ++ [.serverRandom r]) = sfHashes ops := by rw [snoc_sfHashes]; exact List.append_nil _
    have e2 : serverRandoms (ops ++ [.serverRandom r]) = [r] := by rw [snoc_serverRandoms, h0]; rfl
    rcases h.state with hst | ⟨hst, _⟩
    · simp only at hst
      simp only [Prf.setServerRandom, hst] at hp1
      cases hcr : p.clientRandom with
      | none => rw [hcr] at hp1; cases hp1
      | some cr =>
        have hcr' : (clientRandoms ops).head? = some cr := by rw [← hl.cr, hcr]
        rw [hcr] at hp1
        have hke0 : g.keyExpansion.seed = none := by rw [hl.ke, h0]; rfl
        have hlab := hl.labels
        have key : (g.keyExpansion.setStartSeed (r ++ cr)).seed = (serverRandoms (ops ++ [.serverRandom r])).head?.bind fun sr =>
            (clientRandoms (ops ++ [.serverRandom r])).head?.map fun cr => keyLabel ++ (sr ++ cr) := by
          rw [setStartSeed_seed, hlab.ke, e1, e2, hcr']; rfl
        have fin : ∀ ms', p' = ⟨p.config, .setup ⟨ms', g.keyExpansion.setStartSeed (r ++ cr), g.clientFinished, g.serverFinished⟩, some cr⟩ →
            MsInv S vm C.cm ms' → (∀ f, ms' = some f → f.seed = msSeed (ops ++ [.serverRandom r]) mode) →
            Labels mode ⟨ms', g.keyExpansion.setStartSeed (r ++ cr), g.clientFinished, g.serverFinished⟩ →
            ∃ g', PrfInv S C (p', vm) g' ∧ Link mode (ops ++ [.serverRandom r]) p' g' := by
          rintro ms' rfl hi hse hla
          refine ⟨⟨ms', g.keyExpansion.setStartSeed (r ++ cr), g.clientFinished, g.serverFinished⟩, ⟨⟨hi, h.fns.ke.setSeed hke0 _, h.fns.cf, h.fns.sf⟩, h.le, Or.inl rfl⟩, ⟨hl.config, hla, ?_, key, hse, ?_, ?_, ?_⟩⟩
          · rw [e1, hcr']
          · rw [e4]; exact hl.cf
          · rw [e5]; exact hl.sf
          · intro _; rw [e1, hcr']; rfl
        rw [hl.config] at hp1
        cases hms : g.masterSecret with
        | none =>
          rw [hms] at hp1
          have hi := h.fns.ms
          rw [hms] at hi
          have hm := hlab.ms
          rw [hms] at hm
          cases mode with
          | standard => exact hm.elim
          | extended => exact hm.elim
          | direct =>
            refine fin none (Outcome.ok.inj hp1).symm hi (fun f hf => by cases hf) ⟨trivial, ?_, hlab.cf, hlab.sf⟩
            exact (setStartSeed_label _ _).trans hlab.ke
        | some f =>
          rw [hms] at hp1
          have hi := h.fns.ms
          rw [hms] at hi
          have hm := hlab.ms
          rw [hms] at hm
          have hfs := hl.ms f hms
          cases hcm : C.cm with
          | none => rw [hcm] at hi; exact hi.elim
          | some c =>
          rw [hcm] at hi
          cases mode with
          | standard =>
            have hf0 : f.seed = none := by rw [hfs]; simp only [msSeed, h0]; rfl
            refine fin (some (f.setStartSeed (cr ++ r))) (Outcome.ok.inj hp1).symm ?_ ?_ ⟨?_, ?_, hlab.cf, hlab.sf⟩
            · rw [hcm]; exact FnInv.setSeed hi hf0 _
            · intro f' hf'; cases hf'
              rw [setStartSeed_seed, show f.label = msLabel from hm]
              simp only [msSeed, e1, e2, hcr']; rfl
            · exact (setStartSeed_label _ _).trans hm
            · exact (setStartSeed_label _ _).trans hlab.ke
          | extended =>
            refine fin (some f) (Outcome.ok.inj hp1).symm ?_ ?_ ⟨hm, ?_, hlab.cf, hlab.sf⟩
            · rw [hcm]; exact hi
            · intro f' hf'; cases hf'
              rw [hfs]
              simp only [msSeed, e3]
            · exact (setStartSeed_label _ _).trans hlab.ke
          | direct => exact hm.elim
    · simp only at hst
      simp only [Prf.setServerRandom, hst] at hp1; cases hp1
  | sessionHash r =>
    obtain ⟨p1, hp1, hs⟩ := Outcome.bind_eq_ok.mp hs
    cases hs
    have h0 := ho.sh
    rw [snoc_sessionHashes] at h0
    have h0 := head_none_of_once h0
    have e1 : clientRandoms (ops ++ [.sessionHash r]) = clientRandoms ops := by rw [snoc_clientRandoms]; exact List.append_nil _
    have e2 : serverRandoms (ops ++ [.sessionHash r]) = serverRandoms ops := by rw [snoc_serverRandoms]; exact List.append_nil _
    have e4 : cfHashes (ops ++ [.sessionHash r]) = cfHashes ops := by rw [snoc_cfHashes]; exact List.append_nil _
    have e5 : sfHashes (ops ++ [.sessionHash r]) = sfHashes ops := by rw [snoc_sfHashes]; exact List.append_nil _
    have e3 : sessionHashes (ops ++ [.sessionHash r]) = [r] := by rw [snoc_sessionHashes, h0]; rfl
    rcases h.state with hst | ⟨hst, _⟩
    · simp only at hst
      simp only [Prf.setSessionHash, hst] at hp1
      rw [hl.config] at hp1
      have hlab := hl.labels
      cases mode with
      | standard => cases hms : g.masterSecret <;> rw [hms] at hp1 <;> cases hp1
      | direct => cases hms : g.masterSecret <;> rw [hms] at hp1 <;> cases hp1
      | extended =>
        cases hms : g.masterSecret with
        | none => rw [hms] at hp1; cases hp1
        | some f =>
          rw [hms] at hp1
          have hi := h.fns.ms
          rw [hms] at hi
          have hm := hlab.ms
          rw [hms] at hm
          have hf0 : f.seed = none := by rw [hl.ms f hms]; simp only [msSeed, h0]; rfl
          cases hcm : C.cm with
          | none => rw [hcm] at hi; exact hi.elim
          | some c =>
          rw [hcm] at hi
          have hp1 := Outcome.ok.inj hp1
          subst hp1
          refine ⟨⟨some (f.setStartSeed r), g.keyExpansion, g.clientFinished, g.serverFinished⟩, ⟨⟨?_, h.fns.ke, h.fns.cf, h.fns.sf⟩, h.le, Or.inl rfl⟩, ⟨hl.config, ⟨?_, hlab.ke, hlab.cf, hlab.sf⟩, ?_, ?_, ?_,
            ?_, ?_, ?_⟩⟩
          · rw [hcm]; exact FnInv.setSeed hi hf0 _
          · exact (setStartSeed_label _ _).trans hm
          · rw [e1]; exact hl.cr
          · rw [e1, e2]; exact hl.ke
          · intro f' hf'; cases hf'
            rw [setStartSeed_seed, show f.label = emsLabel from hm]
            simp only [msSeed, e3]; rfl
          · rw [e4]; exact hl.cf
          · rw [e5]; exact hl.sf
          · rw [e1, e2]; exact hl.sr
    · simp only at hst
      simp only [Prf.setSessionHash, hst] at hp1; cases hp1
  | cfHash r =>
    obtain ⟨p1, hp1, hs⟩ := Outcome.bind_eq_ok.mp hs
    cases hs
    have h0 := ho.cf
    rw [snoc_cfHashes] at h0
    have h0 := head_none_of_once h0
    have e1 : clientRandoms (ops ++ [.cfHash r]) = clientRandoms ops := by rw [snoc_clientRandoms]; exact List.append_nil _
    have e2 : serverRandoms (ops ++ [.cfHash r]) = serverRandoms ops := by rw [snoc_serverRandoms]; exact List.append_nil _
    have e3 : sessionHashes (ops ++ [.cfHash r]) = sessionHashes ops := by rw [snoc_sessionHashes]; exact List.append_nil _
    have e5 : sfHashes (ops ++ [.cfHash r]) = sfHashes ops := by rw [snoc_sfHashes]; exact List.append_nil _
    have e4 : cfHashes (ops ++ [.cfHash r]) = [r] := by rw [snoc_cfHashes, h0]; rfl
    rcases h.state with hst | ⟨hst, _⟩
    · simp only at hst
      simp only [Prf.setCfHash, hst] at hp1
      have hp1 := Outcome.ok.inj hp1
      subst hp1
      have hlab := hl.labels
      have hf0 : g.clientFinished.seed = none := by rw [hl.cf, h0]; rfl
      refine ⟨⟨g.masterSecret, g.keyExpansion, g.clientFinished.setStartSeed r, g.serverFinished⟩,
        ⟨⟨h.fns.ms, h.fns.ke, h.fns.cf.setSeed hf0 _, h.fns.sf⟩, h.le, Or.inl rfl⟩,
        ⟨hl.config, ⟨hlab.ms, hlab.ke, (setStartSeed_label _ _).trans hlab.cf, hlab.sf⟩, ?_, ?_, ?_, ?_, ?_, ?_⟩⟩
      · rw [e1]; exact hl.cr
      · rw [e1, e2]; exact hl.ke
      · intro f hf
        rw [hl.ms f hf]
        cases mode <;> simp only [msSeed, e1, e2, e3]
      · rw [e4]
        show (g.clientFinished.setStartSeed r).seed = _
        rw [setStartSeed_seed, hlab.cf]; rfl
      · rw [e5]; exact hl.sf
      · rw [e1, e2]; exact hl.sr
    · simp only at hst
      simp only [Prf.setCfHash, hst] at hp1; cases hp1
  | sfHash r =>
    obtain ⟨p1, hp1, hs⟩ := Outcome.bind_eq_ok.mp hs
    cases hs
    have h0 := ho.sf
    rw [snoc_sfHashes] at h0
    have h0 := head_none_of_once h0
    have e1 : clientRandoms (ops ++ [.sfHash r]) = clientRandoms ops := by rw [snoc_clientRandoms]; exact List.append_nil _
    have e2 : serverRandoms (ops ++ [.sfHash r]) = serverRandoms ops := by rw [snoc_serverRandoms]; exact List.append_nil _
    have e3 : sessionHashes (ops ++ [.sfHash r]) = sessionHashes ops := by rw [snoc_sessionHashes]; exact List.append_nil _
    have e4 : cfHashes (ops ++ [.sfHash r]) = cfHashes ops := by rw [snoc_cfHashes]; exact List.append_nil _
    have e5 : sfHashes (ops ++ [.sfHash r]) = [r] := by rw [snoc_sfHashes, h0]; rfl
    rcases h.state with hst | ⟨hst, _⟩
    · simp only at hst
      simp only [Prf.setSfHash, hst] at hp1
      have hp1 := Outcome.ok.inj hp1
      subst hp1
      have hlab := hl.labels
      have hf0 : g.serverFinished.seed = none := by rw [hl.sf, h0]; rfl
      refine ⟨⟨g.masterSecret, g.keyExpansion, g.clientFinished, g.serverFinished.setStartSeed r⟩,
        ⟨⟨h.fns.ms, h.fns.ke, h.fns.cf, h.fns.sf.setSeed hf0 _⟩, h.le, Or.inl rfl⟩,
        ⟨hl.config, ⟨hlab.ms, hlab.ke, hlab.cf, (setStartSeed_label _ _).trans hlab.sf⟩, ?_, ?_, ?_, ?_, ?_, ?_⟩⟩
      · rw [e1]; exact hl.cr
      · rw [e1, e2]; exact hl.ke
      · intro f hf
        rw [hl.ms f hf]
        cases mode <;> simp only [msSeed, e1, e2, e3]
      · rw [e4]; exact hl.cf
      · rw [e5]
        show (g.serverFinished.setStartSeed r).seed = _
        rw [setStartSeed_seed, hlab.sf]; rfl
      · rw [e1, e2]; exact hl.sr
    · simp only at hst
      simp only [Prf.setSfHash, hst] at hp1; cases hp1
  | flush =>
    obtain ⟨g', h1, h2, _, h4, h5, _⟩ := prf_flush_inv hC h hs
    exact ⟨g', h1, (h2.link hl h4 h5).skip _ rfl rfl rfl rfl rfl⟩
  | execute =>
    cases hs
    exact ⟨g, h.execute hC, hl.skip _ rfl rfl rfl rfl rfl⟩
  | alloc len =>
    cases hs
    exact ⟨g, ⟨h.fns.frame hC ⟨fun _ _ _ => rfl, fun _ _ h => h⟩, h.le, h.state⟩, hl.skip _ rfl rfl rfl rfl rfl⟩
  | other id v =>
    obtain ⟨vm1, hv, hs⟩ := Outcome.bind_eq_ok.mp hs
    cases hs
    have hout := ha id v rfl
    refine ⟨g, ?_, hl.skip _ rfl rfl rfl rfl rfl⟩
    simp only [Vm.assign, ne_eq, not_true_eq_false, if_false] at hv
    cases hcm : vm.committed id with
    | some w => simp [hcm] at hv
    | none =>
      simp only [hcm, Option.isSome_none, Bool.false_eq_true, if_false] at hv
      have hv := Outcome.ok.inj hv
      have hown := vm.put_owns id v id (id + 1) (Nat.le_refl _) (Nat.lt_succ_self _) hcm
      subst hv
      refine ⟨h.fns.frame hC (hown.keeps (by omega)), ?_, h.state⟩
      exact h.le.trans hown.le

theorem runOps_inv {S : Sha} {C : PrfCtx} (hC : C.Ok) {mode : MsMode} (ops : List PrfOp) (pre : List PrfOp) {p p' : Prf}
    {vm vm' : Vm} {g : PrfFns} (h : PrfInv S C (p, vm) g) (hl : Link mode pre p g) (ho : SetOnce (pre ++ ops))
    (ha : Apart C.lo C.hi ops) (hs : runOps S ops (p, vm) = .ok (p', vm')) :
    ∃ g', PrfInv S C (p', vm') g' ∧ Link mode (pre ++ ops) p' g' := by
  induction ops generalizing pre p vm g with
  | nil => cases hs; rw [List.append_nil]; exact ⟨g, h, hl⟩
  | cons op ops ih =>
    obtain ⟨⟨p1, vm1⟩, h1, hs⟩ := Outcome.bind_eq_ok.mp hs
    have e : pre ++ op :: ops = (pre ++ [op]) ++ ops := by simp
    rw [e] at ho ⊢
    obtain ⟨g1, i1, l1⟩ := step_inv hC h hl ho.prefix (fun id v h => ha id v (h ▸ List.mem_cons_self)) h1
    exact ih (pre ++ [op]) i1 l1 ho (fun id v hm => ha id v (List.mem_cons_of_mem _ hm)) hs

end Tlsn.Hmac
