import Verif.Proxy.Model
import Verif.Session.Layer

/-! # The machine of the proxy mode -/

namespace Tlsn.Proxy

open Hmac Mpc

/-! ## Histories of the PRF -/

/-- The PRF of the proxy mode. -/
abbrev prfConfig : PrfConfig := ⟨.normal, .direct⟩

/-- The master secret. -/
def msRef : VecRef := ⟨some 0, 48, Ref.input 0 48⟩

/-- The machine when the PRF is allocated. -/
def vm0 : Vm := (emptyVm.alloc 48).1

theorem vm0_fresh : vm0.Fresh := ⟨fun _ _ => rfl, fun _ _ h => h⟩

/-- A history of the PRF from its allocation. -/
structure At (S : Sha) (prf0 : Prf) (vm1 : Vm) (out : PrfOutput) (ops : List PrfOp) (prf : Prf) (vm : Vm) : Prop where
  alloc : allocPrf S prfConfig vm0 msRef = .ok (prf0, vm1, out)
  run : runOps S ops (prf0, vm1) = .ok (prf, vm)
  once : SetOnce ops
  apart : Apart vm0.next vm1.next ops

theorem At.prfRun {S : Sha} {prf0 : Prf} {vm1 : Vm} {out : PrfOutput} {ops : List PrfOp} {prf : Prf} {vm : Vm}
    (h : At S prf0 vm1 out ops prf vm) : PrfRun S prfConfig msRef ops prf vm out :=
  ⟨⟨vm0, prf0, vm1, vm0_fresh, h.alloc, h.apart, h.run⟩, Ref.input_sized 0 48, by decide, h.once⟩

theorem runOps_outside {S : Sha} {C : PrfCtx} (hC : C.Ok) {mode : MsMode} (id : Nat) (hid : id < C.lo ∨ C.hi ≤ id) (ops : List PrfOp)
    (pre : List PrfOp) {p p' : Prf} {vm vm' : Vm} {g : PrfFns} (h : PrfInv S C (p, vm) g) (hl : Link mode pre p g)
    (ho : SetOnce (pre ++ ops)) (ha : Apart C.lo C.hi ops) (hno : ∀ v, PrfOp.other id v ∉ ops)
    (hs : runOps S ops (p, vm) = .ok (p', vm')) : vm'.committed id = vm.committed id := by
  induction ops generalizing pre p vm g with
  | nil => cases hs; rfl
  | cons op ops ih =>
    obtain ⟨⟨p1, vm2⟩, h1, hs⟩ := Outcome.bind_eq_ok.mp hs
    have e : pre ++ op :: ops = (pre ++ [op]) ++ ops := by simp
    rw [e] at ho
    obtain ⟨g1, i1, l1⟩ := step_inv hC h hl ho.prefix (fun id v h => ha id v (h ▸ List.mem_cons_self)) h1
    rw [ih (pre ++ [op]) i1 l1 ho (fun id v hm => ha id v (List.mem_cons_of_mem _ hm))
      (fun v hm => hno v (List.mem_cons_of_mem _ hm)) hs]
    cases op with
    | clientRandom r => cases h1; rfl
    | serverRandom r => obtain ⟨_, _, h1⟩ := Outcome.bind_eq_ok.mp h1; cases h1; rfl
    | sessionHash r => obtain ⟨_, _, h1⟩ := Outcome.bind_eq_ok.mp h1; cases h1; rfl
    | cfHash r => obtain ⟨_, _, h1⟩ := Outcome.bind_eq_ok.mp h1; cases h1; rfl
    | sfHash r => obtain ⟨_, _, h1⟩ := Outcome.bind_eq_ok.mp h1; cases h1; rfl
    | flush =>
      obtain ⟨_, _, _, ho, _⟩ := prf_flush_inv hC h h1
      exact ho.outside id hid
    | execute => cases h1; rfl
    | alloc len => cases h1; rfl
    | other id' v =>
      obtain ⟨vm3, h2, h1⟩ := Outcome.bind_eq_ok.mp h1
      cases h1
      have hne : id ≠ id' := fun h => hno v (by rw [h]; exact List.mem_cons_self)
      simp only [Vm.assign] at h2
      split at h2
      · cases h2
      · split at h2
        · cases h2
        · cases h2; simp [hne]

theorem At.ctx {S : Sha} {prf0 : Prf} {vm1 : Vm} {out : PrfOutput} {ops : List PrfOp} {prf : Prf} {vm : Vm}
    (h : At S prf0 vm1 out ops prf vm) :
    ∃ C g, C.Ok ∧ C.lo = vm0.next ∧ C.hi = vm1.next ∧ PrfInv S C (prf, vm) g ∧ Link .direct ops prf g ∧
      ∀ id, (id < vm0.next ∨ vm1.next ≤ id) → (∀ v, PrfOp.other id v ∉ ops) → vm.committed id = none := by
  obtain ⟨C, prf0', vm1', out', g, h1, h2, h3, h4, h5, h6, h7, h8, h9, h10, h11, h12, h13, h14, h15⟩ :=
    allocPrf_ok S prfConfig vm0 vm0_fresh msRef (Ref.input_sized 0 48) (by decide)
  have ha := h.alloc
  rw [h1] at ha
  cases ha
  have hap := h.apart
  rw [← h3, ← h4] at hap
  obtain ⟨g', i, l⟩ := runOps_inv h2 ops [] h11 h13 h.once hap h.run
  refine ⟨C, g', h2, h3, h4, i, l, fun id hid hno => ?_⟩
  rw [runOps_outside h2 id (by rw [h3, h4]; exact hid) ops [] h11 h13 h.once hap hno h.run, h14]
  rfl

/-- As long as the hash for the server's verify data is not set, the PRF takes values. -/
theorem At.open {S : Sha} {prf0 : Prf} {vm1 : Vm} {out : PrfOutput} {ops : List PrfOp} {prf : Prf} {vm : Vm}
    (h : At S prf0 vm1 out ops prf vm) (hno : sfHashes ops = []) :
    ∃ g, prf.state = .setup g ∧ prf.config.ms = .direct ∧ prf.clientRandom = (clientRandoms ops).head? ∧
      g.serverFinished.isDone = false ∧ (cfHashes ops = [] → g.clientFinished.isDone = false) := by
  obtain ⟨C, g, hC, -, -, i, l, -⟩ := h.ctx
  have hs : g.serverFinished.isDone = false := by
    cases hd : g.serverFinished.isDone with
    | false => rfl
    | true =>
      have := seed_of_done i.fns.sf hd
      rw [l.sf, hno] at this
      cases this
  have hst : prf.state = .setup g := by
    rcases i.state with hs' | ⟨_, hd⟩
    · exact hs'
    · simp only [PrfFns.isDone, Bool.and_eq_true] at hd
      rw [hd.2] at hs
      cases hs
  refine ⟨g, hst, l.config, l.cr, hs, fun hcf => ?_⟩
  cases hd : g.clientFinished.isDone with
  | false => rfl
  | true =>
    have := seed_of_done i.fns.cf hd
    rw [l.cf, hcf] at this
    cases this

theorem At.extend {S : Sha} {prf0 : Prf} {vm1 : Vm} {out : PrfOutput} {ops ops' : List PrfOp} {prf prf' : Prf} {vm vm' : Vm}
    (h : At S prf0 vm1 out ops prf vm) (hr : runOps S ops' (prf, vm) = .ok (prf', vm')) (ho : SetOnce (ops ++ ops'))
    (ha : Apart vm0.next vm1.next ops') : At S prf0 vm1 out (ops ++ ops') prf' vm' :=
  ⟨h.alloc, by rw [runOps_append, h.run]; exact hr, ho, fun id v hm => by
    rcases List.mem_append.1 hm with hm | hm
    · exact h.apart id v hm
    · exact ha id v hm⟩

theorem wants_setSeed {f : InnerPrf} (h : f.isDone = false) (seed : Bytes) : (f.setStartSeed seed).wantsFlush = true := by
  apply wants_of
  · cases f <;> rfl
  · cases f <;> exact h

/-- What can be decoded once the PRF has been flushed. -/
structure Derived (S : Sha) (out : PrfOutput) (m cr sr : Bytes) (e : Env) : Prop where
  ck : out.keys.clientWriteKey.val.run e = some ((S.keyBlock m cr sr).take 16)
  sk : out.keys.serverWriteKey.val.run e = some (((S.keyBlock m cr sr).drop 16).take 16)
  ci : out.keys.clientIv.val.run e = some (((S.keyBlock m cr sr).drop 32).take 4)
  si : out.keys.serverIv.val.run e = some (((S.keyBlock m cr sr).drop 36).take 4)

theorem Derived.mono {S : Sha} {out : PrfOutput} {m cr sr : Bytes} {e e' : Env} (h : Derived S out m cr sr e) (hl : e.Le e') :
    Derived S out m cr sr e' :=
  ⟨Ref.mono _ _ _ _ hl h.ck, Ref.mono _ _ _ _ hl h.sk, Ref.mono _ _ _ _ hl h.ci, Ref.mono _ _ _ _ hl h.si⟩

/-- The loop ends, and everything whose inputs are set can be decoded. -/
theorem At.flush {S : Sha} {prf0 : Prf} {vm1 : Vm} {out : PrfOutput} {ops : List PrfOp} {prf : Prf} {vm : Vm}
    (h : At S prf0 vm1 out ops prf vm) (hz : Sizes ops) {m : Bytes} (hm : vm.committed 0 = some m) (hml : m.length = 48)
    (hw : prf.wantsFlush = true) {cr sr : Bytes} (hcr : clientRandoms ops = [cr]) (hsr : serverRandoms ops = [sr]) :
    ∃ prf' vm' q, flushPrf S 11 prf vm = some (.ok (prf', vm')) ∧ Quiet q ∧ (∀ id v, PrfOp.other id v ∉ q) ∧
      At S prf0 vm1 out (ops ++ q) prf' vm' ∧ vm'.executed = vm'.committed ∧ vm.committed.Le vm'.committed ∧
      Derived S out m cr sr vm'.committed ∧
      (∀ hash, cfHashes ops = [hash] → out.cfVd.val.run vm'.committed = some (S.clientVerifyData m hash)) ∧
      (∀ hash, sfHashes ops = [hash] → out.sfVd.val.run vm'.committed = some (S.serverVerifyData m hash)) := by
  have hk : msRef.val.run vm.committed = some m := by
    show (vm.committed 0).filter _ = _
    rw [hm]
    simp [hml]
  obtain ⟨prf', vm', m', h1, h2, h3, h4, h5, h6⟩ := C44_flush_loop h.prfRun hz (show MasterReady prfConfig.ms ops from trivial) m hk
  have : m' = m := h2
  subst this
  obtain ⟨q, q1, q2, q3⟩ := flushPrf_ops 11 h1
  have hx := h3 hw
  have hx' : vm'.executed = vm'.committed := by
    have := congrArg Vm.executed hx
    exact this.symm
  have hgrow : vm.committed.Le vm'.committed := by
    obtain ⟨C, g, hC, hlo, hhi, i, l, -⟩ := h.ctx
    exact (runOps_grows hC q ops i l (setOnce_quiet h.once q1) (fun id v hm => absurd hm (q2 id v)) q3).1
  obtain ⟨k1, k2, k3, k4⟩ := h4 cr sr hcr hsr
  refine ⟨prf', vm', q, h1, q1, q2, h.extend q3 (setOnce_quiet h.once q1) (fun id v hm => absurd hm (q2 id v)), hx', hgrow,
    ⟨k1, k2, k3, k4⟩, h5, h6⟩

end Tlsn.Proxy
