import Verif.Prf.System

/-! # What the references of the PRF decode to, and how long it takes -/

namespace Tlsn.Hmac

/-- The master secret that the calls in a history give, from a pre-master secret or, in the mode without derivation, a master
secret `k`. -/
def IsMaster (S : Sha) (mode : MsMode) (ops : List PrfOp) (k m : Bytes) : Prop :=
  match mode with
  | .standard => ∃ cr sr, clientRandoms ops = [cr] ∧ serverRandoms ops = [sr] ∧ m = S.masterSecret k cr sr
  | .extended => ∃ sh, sessionHashes ops = [sh] ∧ m = S.extendedMasterSecret k sh
  | .direct => m = k

/-- The key block that the calls in a history give. -/
def IsKeyBlock (S : Sha) (mode : MsMode) (ops : List PrfOp) (k b : Bytes) : Prop :=
  ∃ m cr sr, IsMaster S mode ops k m ∧ clientRandoms ops = [cr] ∧ serverRandoms ops = [sr] ∧ b = S.keyBlock m cr sr

theorem concat_values (F : Nat → Bytes) (e : Env) (l : List VecRef) (j : Nat)
    (h : ∀ i o w, l[i]? = some o → o.val.run e = some w → w = F (j + i)) (v : Bytes) (hv : (concatRefs l).run e = some v) :
    v = (List.range l.length).flatMap fun i => F (j + i) := by
  induction l generalizing j v with
  | nil => cases hv; rfl
  | cons r l ih =>
    rw [concatRefs_cons] at hv
    obtain ⟨x, hx, hv⟩ := Option.bind_eq_some_iff.mp hv
    obtain ⟨y, hy, rfl⟩ := Option.map_eq_some_iff.mp hv
    have h0 := h 0 r x rfl hx
    have h1 := ih (j + 1) (fun i o w hi hw => by
      have := h (i + 1) o w (by simpa using hi) hw
      rw [this]; congr 1; omega) y hy
    rw [List.length_cons, List.range_succ_eq_map, List.flatMap_cons, List.flatMap_map, h0, h1]
    congr 1
    apply List.flatMap_congr
    intro i _
    congr 1
    omega

theorem concat_known (e : Env) (l : List VecRef) (h : ∀ o ∈ l, ∃ v, o.val.run e = some v) :
    ∃ v, (concatRefs l).run e = some v := by
  induction l with
  | nil => exact ⟨_, rfl⟩
  | cons r l ih =>
    obtain ⟨x, hx⟩ := h r (by simp)
    obtain ⟨y, hy⟩ := ih fun o ho => h o (by simp [ho])
    exact ⟨x ++ y, by rw [concatRefs_cons, hx, hy]; rfl⟩

theorem concat_first (e : Env) (l : List VecRef) (hl : 0 < l.length) (v : Bytes) (hv : (concatRefs l).run e = some v) :
    ∃ o w, l[0]? = some o ∧ o.val.run e = some w := by
  cases l with
  | nil => cases hl
  | cons r l =>
    rw [concatRefs_cons] at hv
    obtain ⟨x, hx, hv⟩ := Option.bind_eq_some_iff.mp hv
    exact ⟨r, x, rfl, hx⟩

/-- The concatenated outputs of a function are terms of `P_hash`. -/
theorem fn_value {S : Sha} {c : FnCtx} (hc : c.Ok) {vm : Vm} (hle : vm.executed.Le vm.committed) {f : InnerPrf}
    (h : FnInv S c vm f) (hl : 0 < c.outs.length) (v : Bytes) (hv : (concatRefs c.outs).run vm.committed = some v) :
    ∃ k sl, c.key.val.run vm.committed = some k ∧ f.seed = some sl ∧ v = S.pHash k sl c.outs.length := by
  obtain ⟨o, w, ho, hw⟩ := concat_first _ _ hl v hv
  obtain ⟨k, sl, hk, hsl, _⟩ := FnInv.sound hc hle h f.seed (by cases f <;> rfl) 0 o ho w hw
  refine ⟨k, sl, hk, hsl, ?_⟩
  have := concat_values (fun i => S.hmac k (S.aSeq k sl (i + 1) ++ sl)) vm.committed c.outs 0 (by
    intro i o w ho hw
    obtain ⟨k', sl', hk', hsl', h'⟩ := FnInv.sound hc hle h f.seed (by cases f <;> rfl) i o ho w hw
    rw [hk] at hk'; cases hk'
    rw [hsl] at hsl'; cases hsl'
    simpa using h') v hv
  rw [this]
  simp [Sha.pHash]

theorem only {α : Type} {l : List α} {x : α} (h : l.length ≤ 1) (hx : l.head? = some x) : l = [x] := by
  match l, h, hx with
  | [a], _, hx => cases hx; rfl

theorem ms_value {S : Sha} {C : PrfCtx} (hC : C.Ok) {mode : MsMode} {ops : List PrfOp} (ho : SetOnce ops) {p : Prf} {vm : Vm}
    {g : PrfFns} (h : PrfInv S C (p, vm) g) (hl : Link mode ops p g) (m : Bytes) (hm : C.ms.val.run vm.committed = some m) :
    ∃ k, C.secret.val.run vm.committed = some k ∧ IsMaster S mode ops k m := by
  have hi := h.fns.ms
  have hlab := hl.labels.ms
  cases hcm : C.cm with
  | none =>
    rw [hcm] at hi
    cases hg : g.masterSecret with
    | some f => rw [hg] at hi; exact hi.elim
    | none =>
      rw [hg] at hlab
      rw [hC.direct hcm] at hm
      refine ⟨m, hm, ?_⟩
      cases mode with
      | standard => exact hlab.elim
      | extended => exact hlab.elim
      | direct => rfl
  | some c =>
    rw [hcm] at hi
    cases hg : g.masterSecret with
    | none => rw [hg] at hi; exact hi.elim
    | some f =>
      rw [hg] at hi hlab
      obtain ⟨hok, hkey, _, hlen, _, _, hval⟩ := hC.cm c hcm
      rw [hval] at hm
      obtain ⟨v, hv, rfl⟩ := Option.map_eq_some_iff.mp hm
      obtain ⟨k, sl, hk, hsl, rfl⟩ := fn_value hok h.le hi (by omega) v hv
      rw [hkey] at hk
      refine ⟨k, hk, ?_⟩
      rw [hl.ms f hg] at hsl
      rw [hlen]
      cases mode with
      | direct => exact hlab.elim
      | standard =>
        obtain ⟨sr, hsr, hsl⟩ := Option.bind_eq_some_iff.mp hsl
        obtain ⟨cr, hcr, rfl⟩ := Option.map_eq_some_iff.mp hsl
        exact ⟨cr, sr, only ho.cr hcr, only ho.sr hsr, rfl⟩
      | extended =>
        obtain ⟨sh, hsh, rfl⟩ := Option.map_eq_some_iff.mp hsl
        exact ⟨sh, only ho.sh hsh, rfl⟩

theorem ke_value {S : Sha} {C : PrfCtx} (hC : C.Ok) {mode : MsMode} {ops : List PrfOp} (ho : SetOnce ops) {p : Prf} {vm : Vm}
    {g : PrfFns} (h : PrfInv S C (p, vm) g) (hl : Link mode ops p g) (v : Bytes)
    (hv : (concatRefs C.ck.outs).run vm.committed = some v) :
    ∃ k b, C.secret.val.run vm.committed = some k ∧ IsKeyBlock S mode ops k b ∧ b = v.take 40 := by
  obtain ⟨m, sl, hk, hsl, rfl⟩ := fn_value hC.ck h.le h.fns.ke (by have := hC.lens.1; omega) v hv
  rw [hC.keys.1] at hk
  obtain ⟨k, hk', hm⟩ := ms_value hC ho h hl m hk
  rw [hl.ke] at hsl
  obtain ⟨sr, hsr, hsl⟩ := Option.bind_eq_some_iff.mp hsl
  obtain ⟨cr, hcr, rfl⟩ := Option.map_eq_some_iff.mp hsl
  exact ⟨k, _, hk', ⟨m, cr, sr, hm, only ho.cr hcr, only ho.sr hsr, rfl⟩, by rw [hC.lens.1]; rfl⟩

theorem cf_value {S : Sha} {C : PrfCtx} (hC : C.Ok) {mode : MsMode} {ops : List PrfOp} (ho : SetOnce ops) {p : Prf} {vm : Vm}
    {g : PrfFns} (h : PrfInv S C (p, vm) g) (hl : Link mode ops p g) (v : Bytes)
    (hv : (concatRefs C.cc.outs).run vm.committed = some v) :
    ∃ k m hash, C.secret.val.run vm.committed = some k ∧ IsMaster S mode ops k m ∧ cfHashes ops = [hash] ∧
      v.take 12 = S.clientVerifyData m hash := by
  obtain ⟨m, sl, hk, hsl, rfl⟩ := fn_value hC.cc h.le h.fns.cf (by have := hC.lens.2.1; omega) v hv
  rw [hC.keys.2.1] at hk
  obtain ⟨k, hk', hm⟩ := ms_value hC ho h hl m hk
  rw [hl.cf] at hsl
  obtain ⟨hash, hh, rfl⟩ := Option.map_eq_some_iff.mp hsl
  exact ⟨k, m, hash, hk', hm, only ho.cf hh, by rw [hC.lens.2.1]; rfl⟩

theorem sf_value {S : Sha} {C : PrfCtx} (hC : C.Ok) {mode : MsMode} {ops : List PrfOp} (ho : SetOnce ops) {p : Prf} {vm : Vm}
    {g : PrfFns} (h : PrfInv S C (p, vm) g) (hl : Link mode ops p g) (v : Bytes)
    (hv : (concatRefs C.cs.outs).run vm.committed = some v) :
    ∃ k m hash, C.secret.val.run vm.committed = some k ∧ IsMaster S mode ops k m ∧ sfHashes ops = [hash] ∧
      v.take 12 = S.serverVerifyData m hash := by
  obtain ⟨m, sl, hk, hsl, rfl⟩ := fn_value hC.cs h.le h.fns.sf (by have := hC.lens.2.2; omega) v hv
  rw [hC.keys.2.2] at hk
  obtain ⟨k, hk', hm⟩ := ms_value hC ho h hl m hk
  rw [hl.sf] at hsl
  obtain ⟨hash, hh, rfl⟩ := Option.map_eq_some_iff.mp hsl
  exact ⟨k, m, hash, hk', hm, only ho.sf hh, by rw [hC.lens.2.2]; rfl⟩

/-- The session keys in terms of the outputs of the key expansion. -/
theorem keys_run {outs : List VecRef} {keys : SessionKeys} (h : getSessionKeys outs = .ok keys) (e : Env) :
    keys.clientWriteKey.val.run e = ((concatRefs outs).run e).map (fun v => (v.take 40).take 16) ∧
    keys.serverWriteKey.val.run e = ((concatRefs outs).run e).map (fun v => ((v.take 40).drop 16).take 16) ∧
    keys.clientIv.val.run e = ((concatRefs outs).run e).map (fun v => ((v.take 40).drop 32).take 4) ∧
    keys.serverIv.val.run e = ((concatRefs outs).run e).map (fun v => ((v.take 40).drop 36).take 4) := by
  unfold getSessionKeys mergeOutputs at h
  split at h
  · cases h
    simp only [Ref.map_run, Option.map_map]
    refine ⟨?_, ?_, ?_, ?_⟩ <;> congr 1 <;> funext v <;> simp [List.take_take, List.drop_take]
  · cases h

theorem merge_run {outs : List VecRef} {n : Nat} {r : VecRef} (h : mergeOutputs outs n = .ok r) (e : Env) :
    r.val.run e = ((concatRefs outs).run e).map (·.take n) := by
  unfold mergeOutputs at h
  split at h
  · cases h; rfl
  · cases h

/-! ## The loop -/

/-- Everything that is hashed has 32 bytes. -/
def Sizes (ops : List PrfOp) : Prop :=
  ∀ r ∈ clientRandoms ops ++ serverRandoms ops ++ sessionHashes ops ++ cfHashes ops ++ sfHashes ops, r.length = 32

/-- The lengths of the seeds that the machine expects. -/
structure SeedLens (C : PrfCtx) (mode : MsMode) : Prop where
  cm : ∀ c, C.cm = some c → c.seedLen = msSeedLen mode
  ck : C.ck.seedLen = 77
  cc : C.cc.seedLen = 47
  cs : C.cs.seedLen = 47

theorem seedFits_of (c : FnCtx) (f : InnerPrf) (h : ∀ sl, f.seed = some sl → sl.length = c.seedLen) : f.SeedFits c := by
  cases f with
  | normal f => exact h
  | reduced f => trivial

theorem head_mem {α : Type} {l : List α} {x : α} (h : l.head? = some x) : x ∈ l := by
  cases l with
  | nil => cases h
  | cons a l => cases h; exact List.mem_cons_self

theorem seedsFit {C : PrfCtx} {mode : MsMode} (hL : SeedLens C mode) {ops : List PrfOp} (hz : Sizes ops) {p : Prf} {g : PrfFns}
    (hl : Link mode ops p g) : g.SeedsFit C := by
  have z1 : ∀ {r}, (clientRandoms ops).head? = some r → r.length = 32 := fun h => hz _ (by simp [head_mem h])
  have z2 : ∀ {r}, (serverRandoms ops).head? = some r → r.length = 32 := fun h => hz _ (by simp [head_mem h])
  have z3 : ∀ {r}, (sessionHashes ops).head? = some r → r.length = 32 := fun h => hz _ (by simp [head_mem h])
  have z4 : ∀ {r}, (cfHashes ops).head? = some r → r.length = 32 := fun h => hz _ (by simp [head_mem h])
  have z5 : ∀ {r}, (sfHashes ops).head? = some r → r.length = 32 := fun h => hz _ (by simp [head_mem h])
  refine ⟨?_, ?_, ?_, ?_⟩
  · intro c f hc hf
    apply seedFits_of
    intro sl hsl
    rw [hL.cm c hc]
    rw [hl.ms f hf] at hsl
    cases mode with
    | direct => cases hsl
    | standard =>
      obtain ⟨sr, hsr, hsl⟩ := Option.bind_eq_some_iff.mp hsl
      obtain ⟨cr, hcr, rfl⟩ := Option.map_eq_some_iff.mp hsl
      simp [z1 hcr, z2 hsr, msSeedLen, show msLabel.length = 13 by decide +kernel]
    | extended =>
      obtain ⟨sh, hsh, rfl⟩ := Option.map_eq_some_iff.mp hsl
      simp [z3 hsh, msSeedLen, show emsLabel.length = 22 by decide +kernel]
  · apply seedFits_of
    intro sl hsl
    rw [hl.ke] at hsl
    obtain ⟨sr, hsr, hsl⟩ := Option.bind_eq_some_iff.mp hsl
    obtain ⟨cr, hcr, rfl⟩ := Option.map_eq_some_iff.mp hsl
    simp [z1 hcr, z2 hsr, hL.ck, show keyLabel.length = 13 by decide +kernel]
  · apply seedFits_of
    intro sl hsl
    rw [hl.cf] at hsl
    obtain ⟨sh, hsh, rfl⟩ := Option.map_eq_some_iff.mp hsl
    simp [z4 hsh, hL.cc, show cfLabel.length = 15 by decide +kernel]
  · apply seedFits_of
    intro sl hsl
    rw [hl.sf] at hsl
    obtain ⟨sh, hsh, rfl⟩ := Option.map_eq_some_iff.mp hsl
    simp [z5 hsh, hL.cs, show sfLabel.length = 15 by decide +kernel]

theorem done_of_idle {f : InnerPrf} (hs : f.seed.isSome = true) (hw : f.wantsFlush = false) : f.isDone = true := by
  cases f with
  | normal f =>
    simp only [InnerPrf.wantsFlush, NormalFn.wantsFlush, InnerPrf.seed, InnerPrf.isDone] at *
    simpa [hs] using hw
  | reduced f =>
    simp only [InnerPrf.wantsFlush, ReducedFn.wantsFlush, InnerPrf.seed, InnerPrf.isDone] at *
    simpa [hs] using hw

theorem wants_of {f : InnerPrf} (hs : f.seed.isSome = true) (hd : f.isDone = false) : f.wantsFlush = true := by
  cases hw : f.wantsFlush with
  | true => rfl
  | false => rw [done_of_idle hs hw] at hd; cases hd

theorem idle_of_done {f : InnerPrf} (hd : f.isDone = true) : f.wantsFlush = false := by
  cases f with
  | normal f => simp only [InnerPrf.wantsFlush, NormalFn.wantsFlush, InnerPrf.isDone] at *; simp [hd]
  | reduced f => simp only [InnerPrf.wantsFlush, ReducedFn.wantsFlush, InnerPrf.isDone] at *; simp [hd]

theorem seed_of_done {S : Sha} {c : FnCtx} {vm : Vm} {f : InnerPrf} (h : FnInv S c vm f) (hd : f.isDone = true) :
    f.seed.isSome = true := by
  cases f with
  | normal f =>
    obtain ⟨id, h⟩ := h
    obtain ⟨sl, hsl, _⟩ := h.fin hd
    exact Option.isSome_iff_exists.mpr ⟨sl, hsl⟩
  | reduced f =>
    obtain ⟨as, ps, h⟩ := h
    have hst := h.st
    cases hs : f.state with
    | done =>
      rw [hs] at hst
      obtain ⟨k, sl, hsl, _⟩ := hst
      exact Option.isSome_iff_exists.mpr ⟨sl, hsl⟩
    | _ => simp [InnerPrf.isDone, ReducedFn.isDone, hs] at hd

/-- The master secret is known when it is given, or when its function is done. -/
theorem ms_known {S : Sha} {C : PrfCtx} (hC : C.Ok) {p : Prf} {vm : Vm} {g : PrfFns} (h : PrfInv S C (p, vm) g) (k : Bytes)
    (hk : C.secret.val.run vm.committed = some k) (hd : ∀ f, g.masterSecret = some f → f.isDone = true) :
    ∃ m, C.ms.val.run vm.committed = some m := by
  have hi := h.fns.ms
  cases hcm : C.cm with
  | none => rw [hC.direct hcm]; exact ⟨k, hk⟩
  | some c =>
    rw [hcm] at hi
    cases hg : g.masterSecret with
    | none => rw [hg] at hi; exact hi.elim
    | some f =>
      rw [hg] at hi
      obtain ⟨hok, hkey, _, _, _, _, hval⟩ := hC.cm c hcm
      rw [← hkey] at hk
      obtain ⟨v, hv⟩ := concat_known vm.committed c.outs (fun o ho => by
        obtain ⟨i, hi'⟩ := List.mem_iff_getElem?.mp ho
        exact FnInv.known hok h.le hi (hd f hg) k hk i o hi')
      exact ⟨_, by rw [hval, Ref.map_run, hv]; rfl⟩

theorem todo_le {S : Sha} {c : FnCtx} {vm : Vm} {f : InnerPrf} (h : FnInv S c vm f) : f.todo c.n ≤ c.n + 1 := by
  cases f with
  | normal f => simp only [InnerPrf.todo]; split <;> omega
  | reduced f =>
    obtain ⟨as, ps, h⟩ := h
    have hst := h.st
    cases hs : f.state with
    | computeA i s m => rw [hs] at hst; exact hst.elim
    | innerPartial r => simp [InnerPrf.todo, hs]
    | computeP i s m => simp [InnerPrf.todo, hs]
    | done => simp [InnerPrf.todo, hs]

theorem fns_todo_le {S : Sha} {C : PrfCtx} (hC : C.Ok) {vm : Vm} {g : PrfFns} (h : FnsInv S C vm g) : g.todo ≤ 10 := by
  obtain ⟨n1, n2, n3⟩ := hC.ns
  have t1 := todo_le h.ke
  have t2 := todo_le h.cf
  have t3 := todo_le h.sf
  rw [n1] at t1; rw [n2] at t2; rw [n3] at t3
  have t0 : (g.masterSecret.map (·.todo 2)).getD 0 ≤ 3 := by
    have hi := h.ms
    cases hg : g.masterSecret with
    | none => simp
    | some f =>
      rw [hg] at hi
      cases hcm : C.cm with
      | none => rw [hcm] at hi; exact hi.elim
      | some c =>
        rw [hcm] at hi
        have := todo_le hi
        rw [(hC.cm c hcm).2.2.1] at this
        exact this
  unfold PrfFns.todo
  omega

theorem wantsFlush_setup {p : Prf} {g : PrfFns} (h : p.state = .setup g) : p.wantsFlush = g.wantsFlush := by
  unfold Prf.wantsFlush; rw [h]; rfl

/-- A flush with everything known makes progress. -/
theorem flush_progress {S : Sha} {C : PrfCtx} (hC : C.Ok) {p : Prf} {vm : Vm} {g g' : PrfFns} {vm' : Vm}
    (h : PrfInv S C (p, vm) g) (hf : FnsFlushed S C g g' vm vm') (hw : g.wantsFlush = true)
    (hse : ∀ f, g.masterSecret = some f → f.seed.isSome = true) (he : vm.executed = vm.committed) (k : Bytes)
    (hk : C.secret.val.run vm.committed = some k) : g'.todo < g.todo := by
  have hks : ∃ k, C.secret.val.run vm.executed = some k := ⟨k, by rw [he]; exact hk⟩
  have hms : (g.masterSecret.map (·.todo 2)).getD 0 ≥ (g'.masterSecret.map (·.todo 2)).getD 0 := by
    cases hg : g.masterSecret with
    | none =>
      have := hf.seeds.ms
      rw [hg] at this
      have : g'.masterSecret = none := by
        cases hg' : g'.masterSecret with
        | none => rfl
        | some f' => rw [hg'] at this; cases this
      rw [this]; simp
    | some f =>
      cases hg' : g'.masterSecret with
      | none => simp
      | some f' => exact (hf.ms f f' hg hg').1
  have l1 := hf.ke.1
  have l2 := hf.cf.1
  have l3 := hf.sf.1
  by_cases hd : ∀ f, g.masterSecret = some f → f.isDone = true
  · obtain ⟨m, hm⟩ := ms_known hC h k hk hd
    have hkm : ∃ k, C.ms.val.run vm.executed = some k := ⟨m, by rw [he]; exact hm⟩
    simp only [PrfFns.wantsFlush, Bool.or_eq_true] at hw
    unfold PrfFns.todo
    rcases hw with ((hw | hw) | hw) | hw
    · cases hg : g.masterSecret with
      | none => rw [hg] at hw; cases hw
      | some f =>
        rw [hg] at hw
        have := idle_of_done (hd f hg)
        simp [this] at hw
    · have := hf.ke.2 hw he hkm; omega
    · have := hf.cf.2 hw he hkm; omega
    · have := hf.sf.2 hw he hkm; omega
  · obtain ⟨f, hg, hnd⟩ : ∃ f, g.masterSecret = some f ∧ f.isDone = false := by
      cases hg : g.masterSecret with
      | none => exact absurd (fun f hf => by rw [hg] at hf; cases hf) hd
      | some f =>
        refine ⟨f, rfl, ?_⟩
        cases hfd : f.isDone with
        | false => rfl
        | true => exact absurd (fun f' hf' => by rw [hg] at hf'; cases hf'; exact hfd) hd
    obtain ⟨f', hg'⟩ : ∃ f', g'.masterSecret = some f' := by
      have := hf.seeds.ms
      rw [hg, Option.map_some] at this
      obtain ⟨f', hf', _⟩ := Option.map_eq_some_iff.mp this
      exact ⟨f', hf'⟩
    have := (hf.ms f f' hg hg').2 (wants_of (hse f hg) hnd) he hks
    unfold PrfFns.todo
    rw [hg, hg']
    simp only [Option.map_some, Option.getD_some]
    omega

theorem Link.hse {mode : MsMode} {ops : List PrfOp} {p : Prf} {g : PrfFns} (hl : Link mode ops p g)
    (hready : mode = .direct ∨ (msSeed ops mode).isSome = true) : ∀ f, g.masterSecret = some f → f.seed.isSome = true := by
  intro f hf
  rcases hready with rfl | hr
  · have := hl.labels.ms
    rw [hf] at this
    exact this.elim
  · rw [hl.ms f hf]; exact hr

/-- The loop, from a machine that has just run. -/
theorem flush_loop {S : Sha} {C : PrfCtx} (hC : C.Ok) {mode : MsMode} (hL : SeedLens C mode) {ops : List PrfOp} (hz : Sizes ops)
    (hready : mode = .direct ∨ (msSeed ops mode).isSome = true) (k : Bytes) (n : Nat) {p : Prf} {vm : Vm} {g : PrfFns}
    (h : PrfInv S C (p, vm) g) (hl : Link mode ops p g) (hk : C.secret.val.run vm.committed = some k)
    (he : vm.executed = vm.committed) (hn : g.todo ≤ n) :
    ∃ p' vm' g', flushPrf S n p vm = some (.ok (p', vm')) ∧ PrfInv S C (p', vm') g' ∧ Link mode ops p' g' ∧
      p'.wantsFlush = false ∧ vm'.executed = vm'.committed ∧ C.secret.val.run vm'.committed = some k := by
  induction n generalizing p vm g with
  | zero =>
    refine ⟨p, vm, g, ?_, h, hl, ?_⟩
    · have : p.wantsFlush = false := by
        rcases h.state with hs | ⟨hs, _⟩
        · cases hw : p.wantsFlush with
          | false => rfl
          | true =>
            rw [wantsFlush_setup hs] at hw
            obtain ⟨g', vm', hfl⟩ := (fns_flush hC h.le h.fns).2 (seedsFit hL hz hl)
            have := flush_progress hC h ((fns_flush hC h.le h.fns).1 g' vm' hfl) hw (hl.hse hready) he k hk
            omega
        · simp only at hs
          unfold Prf.wantsFlush; rw [hs]
      simp [flushPrf, this]
    · have : p.wantsFlush = false := by
        rcases h.state with hs | ⟨hs, _⟩
        · cases hw : p.wantsFlush with
          | false => rfl
          | true =>
            rw [wantsFlush_setup hs] at hw
            obtain ⟨g', vm', hfl⟩ := (fns_flush hC h.le h.fns).2 (seedsFit hL hz hl)
            have := flush_progress hC h ((fns_flush hC h.le h.fns).1 g' vm' hfl) hw (hl.hse hready) he k hk
            omega
        · simp only at hs
          unfold Prf.wantsFlush; rw [hs]
      exact ⟨this, he, hk⟩
  | succ n ih =>
    cases hw : p.wantsFlush with
    | false => exact ⟨p, vm, g, by simp [flushPrf, hw], h, hl, hw, he, hk⟩
    | true =>
      rcases h.state with hs | ⟨hs, _⟩
      · obtain ⟨g1, vm1, hfl⟩ := (fns_flush hC h.le h.fns).2 (seedsFit hL hz hl)
        have hfl' := prf_flush_setup S p vm g hs
        rw [hfl] at hfl'
        obtain ⟨g', h1, h2, h3, h4, h5, h6⟩ := prf_flush_inv hC h hfl'
        obtain ⟨hff, _⟩ := h6 hs
        rw [wantsFlush_setup hs] at hw
        have hprog := flush_progress hC h hff hw (hl.hse hready) he k hk
        obtain ⟨p', vm', g'', r1, r2, r3, r4⟩ := ih (h1.execute hC) (h2.link hl h4 h5)
          (C.secret.val.mono _ _ k h3.le hk) rfl (by omega)
        refine ⟨p', vm', g'', ?_, r2, r3, r4⟩
        rw [flushPrf, if_pos (by rw [wantsFlush_setup hs]; exact hw), hfl']
        exact r1
      · simp only at hs
        unfold Prf.wantsFlush at hw; rw [hs] at hw; cases hw

/-- The loop, from any machine: the first round may only run the machine. -/
theorem flush_loop_any {S : Sha} {C : PrfCtx} (hC : C.Ok) {mode : MsMode} (hL : SeedLens C mode) {ops : List PrfOp}
    (hz : Sizes ops) (hready : mode = .direct ∨ (msSeed ops mode).isSome = true) (k : Bytes) {p : Prf} {vm : Vm} {g : PrfFns}
    (h : PrfInv S C (p, vm) g) (hl : Link mode ops p g) (hk : C.secret.val.run vm.committed = some k) :
    ∃ p' vm' g', flushPrf S 11 p vm = some (.ok (p', vm')) ∧ PrfInv S C (p', vm') g' ∧ Link mode ops p' g' ∧
      p'.wantsFlush = false ∧ (p.wantsFlush = true → vm'.executed = vm'.committed) ∧
      C.secret.val.run vm'.committed = some k := by
  cases hw : p.wantsFlush with
  | false => exact ⟨p, vm, g, by simp [flushPrf, hw], h, hl, hw, by simp, hk⟩
  | true =>
    rcases h.state with hs | ⟨hs, _⟩
    · obtain ⟨g1, vm1, hfl⟩ := (fns_flush hC h.le h.fns).2 (seedsFit hL hz hl)
      have hfl' := prf_flush_setup S p vm g hs
      rw [hfl] at hfl'
      obtain ⟨g', h1, h2, h3, h4, h5, h6⟩ := prf_flush_inv hC h hfl'
      obtain ⟨p', vm', g'', r1, r2, r3, r4, r5, r6⟩ := flush_loop hC hL hz hready k 10 (h1.execute hC) (h2.link hl h4 h5)
        (C.secret.val.mono _ _ k h3.le hk) rfl (fns_todo_le hC (h1.execute hC).fns)
      refine ⟨p', vm', g'', ?_, r2, r3, r4, fun _ => r5, r6⟩
      rw [flushPrf, if_pos hw, hfl']
      exact r1
    · simp only at hs
      unfold Prf.wantsFlush at hw; rw [hs] at hw; cases hw

/-- What an idle function with a seed gives once the machine has run. -/
theorem outs_known {S : Sha} {c : FnCtx} (hc : c.Ok) {vm : Vm} (hle : vm.executed.Le vm.committed) {f : InnerPrf}
    (h : FnInv S c vm f) (hd : f.isDone = true) (k : Bytes) (hk : c.key.val.run vm.committed = some k) :
    ∃ v, (concatRefs c.outs).run vm.committed = some v :=
  concat_known _ _ fun o ho => by
    obtain ⟨i, hi'⟩ := List.mem_iff_getElem?.mp ho
    exact FnInv.known hc hle h hd k hk i o hi'

/-- The functions of an idle PRF that have a seed are done. -/
theorem idle_done {S : Sha} {C : PrfCtx} {p : Prf} {vm : Vm} {g : PrfFns} (h : PrfInv S C (p, vm) g) (hw : p.wantsFlush = false) :
    (∀ f, g.masterSecret = some f → f.seed.isSome = true → f.isDone = true) ∧
    (g.keyExpansion.seed.isSome = true → g.keyExpansion.isDone = true) ∧
    (g.clientFinished.seed.isSome = true → g.clientFinished.isDone = true) ∧
    (g.serverFinished.seed.isSome = true → g.serverFinished.isDone = true) := by
  rcases h.state with hs | ⟨_, hd⟩
  · rw [wantsFlush_setup hs] at hw
    simp only [PrfFns.wantsFlush, Bool.or_eq_false_iff] at hw
    obtain ⟨⟨⟨w1, w2⟩, w3⟩, w4⟩ := hw
    refine ⟨?_, fun h => done_of_idle h w2, fun h => done_of_idle h w3, fun h => done_of_idle h w4⟩
    intro f hf hse
    rw [hf] at w1
    exact done_of_idle hse (by simpa using w1)
  · simp only [PrfFns.isDone, Bool.and_eq_true] at hd
    obtain ⟨⟨⟨d1, d2⟩, d3⟩, d4⟩ := hd
    refine ⟨?_, fun _ => d2, fun _ => d3, fun _ => d4⟩
    intro f hf _
    rw [hf] at d1
    simpa using d1

/-! ## The kinds of functions -/

def InnerPrf.kind : InnerPrf → NetworkMode
  | .normal _ => .normal
  | .reduced _ => .reduced

/-- All functions are of the configured kind. -/
def Kinds (net : NetworkMode) (s : Prf × Vm) : Prop := ∀ g, s.1.state = .setup g →
  (∀ f, g.masterSecret = some f → f.kind = net) ∧ g.keyExpansion.kind = net ∧ g.clientFinished.kind = net ∧
    g.serverFinished.kind = net

theorem kind_alloc (S : Sha) (vm : Vm) (net : NetworkMode) (label : Bytes) (outer inner : ShaRef) (n m : Nat) :
    (InnerPrf.alloc S vm net label outer inner n m).2.kind = net := by cases net <;> rfl

theorem kind_seed (f : InnerPrf) (s : Bytes) : (f.setStartSeed s).kind = f.kind := by cases f <;> rfl

theorem kind_flush {S : Sha} {f f' : InnerPrf} {vm vm' : Vm} (h : f.flushIfWanted S vm = .ok (f', vm')) : f'.kind = f.kind := by
  unfold InnerPrf.flushIfWanted at h
  split at h
  · cases f with
    | normal f => obtain ⟨r, _, h⟩ := Outcome.bind_eq_ok.mp h; cases h; rfl
    | reduced f => obtain ⟨r, _, h⟩ := Outcome.bind_eq_ok.mp h; cases h; rfl
  · cases h; rfl

theorem kinds_allocPostMs {S : Sha} {prf : Prf} {vm : Vm} {ms : VecRef} {f0 : Option InnerPrf} {r : Prf × Vm × PrfOutput}
    (h : prf.allocPostMs S vm ms f0 = .ok r) (h0 : ∀ f, f0 = some f → f.kind = prf.config.network) :
    Kinds prf.config.network (r.1, r.2.1) := by
  have e1 := kind_alloc S vm prf.config.network keyLabel (computePartial S ms opad) (computePartial S ms ipad) 40 64
  generalize ha1 : InnerPrf.alloc S vm prf.config.network keyLabel (computePartial S ms opad) (computePartial S ms ipad) 40 64 = r1
    at e1
  have e2 := kind_alloc S r1.1 prf.config.network cfLabel (computePartial S ms opad) (computePartial S ms ipad) 12 32
  generalize ha2 : InnerPrf.alloc S r1.1 prf.config.network cfLabel (computePartial S ms opad) (computePartial S ms ipad) 12 32 = r2
    at e2
  have e3 := kind_alloc S r2.1 prf.config.network sfLabel (computePartial S ms opad) (computePartial S ms ipad) 12 32
  generalize ha3 : InnerPrf.alloc S r2.1 prf.config.network sfLabel (computePartial S ms opad) (computePartial S ms ipad) 12 32 = r3
    at e3
  simp only [Prf.allocPostMs, ha1, ha2, ha3] at h
  obtain ⟨a, _, h⟩ := Outcome.bind_eq_ok.mp h
  obtain ⟨b, _, h⟩ := Outcome.bind_eq_ok.mp h
  obtain ⟨c, _, h⟩ := Outcome.bind_eq_ok.mp h
  cases h
  intro g hg
  cases hg
  exact ⟨h0, e1, e2, e3⟩

theorem kinds_alloc {S : Sha} {cfg : PrfConfig} {vm : Vm} {secret : VecRef} {r : Prf × Vm × PrfOutput}
    (h : allocPrf S cfg vm secret = .ok r) : Kinds cfg.network (r.1, r.2.1) := by
  cases hm : cfg.ms with
  | direct =>
    simp only [allocPrf, hm, Prf.allocMs, Prf.new] at h
    exact kinds_allocPostMs h (by intro f hf; cases hf)
  | standard =>
    simp only [allocPrf, hm, Prf.allocPms, Prf.new] at h
    obtain ⟨m, _, h⟩ := Outcome.bind_eq_ok.mp h
    exact kinds_allocPostMs h (by intro f hf; cases hf; exact kind_alloc ..)
  | extended =>
    simp only [allocPrf, hm, Prf.allocPms, Prf.new] at h
    obtain ⟨m, _, h⟩ := Outcome.bind_eq_ok.mp h
    exact kinds_allocPostMs h (by intro f hf; cases hf; exact kind_alloc ..)

theorem kinds_flush {S : Sha} {net : NetworkMode} {p p' : Prf} {vm vm' : Vm} (hk : Kinds net (p, vm))
    (h : p.flush S vm = .ok (p', vm')) : Kinds net (p', vm') := by
  cases hs : p.state with
  | setup g =>
    rw [prf_flush_setup S p vm g hs] at h
    obtain ⟨⟨g', vm1⟩, hg, h⟩ := Outcome.bind_eq_ok.mp h
    cases h
    obtain ⟨k1, k2, k3, k4⟩ := hk g hs
    obtain ⟨⟨ms, va⟩, hm, hg⟩ := Outcome.bind_eq_ok.mp hg
    obtain ⟨⟨ke, vb⟩, hke, hg⟩ := Outcome.bind_eq_ok.mp hg
    obtain ⟨⟨cf, vc⟩, hcf, hg⟩ := Outcome.bind_eq_ok.mp hg
    obtain ⟨⟨sf, vd⟩, hsf, hg⟩ := Outcome.bind_eq_ok.mp hg
    cases hg
    intro g'' hg''
    simp only at hg''
    split at hg''
    · cases hg''
    · cases hg''
      refine ⟨?_, (kind_flush hke).trans k2, (kind_flush hcf).trans k3, (kind_flush hsf).trans k4⟩
      intro f hf
      simp only at hf
      subst hf
      cases hgm : g.masterSecret with
      | none => rw [hgm] at hm; cases hm
      | some f0 =>
        rw [hgm] at hm
        obtain ⟨r, hr, hm⟩ := Outcome.bind_eq_ok.mp hm
        cases hm
        exact (kind_flush hr).trans (k1 f0 hgm)
  | initialized => unfold Prf.flush at h; rw [hs] at h; cases h; exact hk
  | complete => unfold Prf.flush at h; rw [hs] at h; cases h; exact hk

theorem kinds_step {S : Sha} {net : NetworkMode} {op : PrfOp} {s s' : Prf × Vm} (hk : Kinds net s)
    (h : op.step S s = .ok s') : Kinds net s' := by
  obtain ⟨p, vm⟩ := s
  cases op with
  | clientRandom r => cases h; exact hk
  | execute => cases h; exact hk
  | alloc len => cases h; exact hk
  | other id v => obtain ⟨vm1, _, h⟩ := Outcome.bind_eq_ok.mp h; cases h; exact hk
  | flush => exact kinds_flush hk h
  | cfHash r =>
    obtain ⟨p1, hp, h⟩ := Outcome.bind_eq_ok.mp h
    cases h
    cases hs : p.state with
    | setup g =>
      simp only [Prf.setCfHash, hs] at hp
      cases hp
      obtain ⟨k1, k2, k3, k4⟩ := hk g hs
      intro g' hg'; cases hg'
      exact ⟨k1, k2, (kind_seed _ _).trans k3, k4⟩
    | _ => simp only [Prf.setCfHash, hs] at hp; cases hp
  | sfHash r =>
    obtain ⟨p1, hp, h⟩ := Outcome.bind_eq_ok.mp h
    cases h
    cases hs : p.state with
    | setup g =>
      simp only [Prf.setSfHash, hs] at hp
      cases hp
      obtain ⟨k1, k2, k3, k4⟩ := hk g hs
      intro g' hg'; cases hg'
      exact ⟨k1, k2, k3, (kind_seed _ _).trans k4⟩
    | _ => simp only [Prf.setSfHash, hs] at hp; cases hp
  | sessionHash r =>
    obtain ⟨p1, hp, h⟩ := Outcome.bind_eq_ok.mp h
    cases h
    cases hs : p.state with
    | setup g =>
      simp only [Prf.setSessionHash, hs] at hp
      obtain ⟨k1, k2, k3, k4⟩ := hk g hs
      cases hm : p.config.ms <;> cases hg : g.masterSecret <;> rw [hm, hg] at hp <;> cases hp
      intro g' hg'; cases hg'
      exact ⟨fun f hf => by cases hf; exact (kind_seed _ _).trans (k1 _ hg), k2, k3, k4⟩
    | _ => simp only [Prf.setSessionHash, hs] at hp; cases hp
  | serverRandom r =>
    obtain ⟨p1, hp, h⟩ := Outcome.bind_eq_ok.mp h
    cases h
    cases hs : p.state with
    | setup g =>
      simp only [Prf.setServerRandom, hs] at hp
      obtain ⟨k1, k2, k3, k4⟩ := hk g hs
      cases hc : p.clientRandom with
      | none => rw [hc] at hp; cases hp
      | some cr =>
        rw [hc] at hp
        cases hm : p.config.ms <;> cases hg : g.masterSecret <;> rw [hm, hg] at hp <;> cases hp <;>
          intro g' hg' <;> cases hg' <;> refine ⟨fun f hf => ?_, (kind_seed _ _).trans k2, k3, k4⟩ <;> cases hf
        · exact (kind_seed _ _).trans (k1 _ hg)
        · exact k1 _ hg
        · exact k1 _ hg
    | _ => simp only [Prf.setServerRandom, hs] at hp; cases hp

theorem kinds_run {S : Sha} {net : NetworkMode} (ops : List PrfOp) {s s' : Prf × Vm} (hk : Kinds net s)
    (h : runOps S ops s = .ok s') : Kinds net s' := by
  induction ops generalizing s with
  | nil => cases h; exact hk
  | cons op ops ih =>
    obtain ⟨s1, h1, h⟩ := Outcome.bind_eq_ok.mp h
    exact ih (kinds_step hk h1) h

end Tlsn.Hmac
