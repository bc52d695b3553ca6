import Verif.Session.Model
import Verif.KeyExchange.System
import Verif.Prf.Props
import Verif.RecordLayer.Agreement

/-! # The machinery of a connection, for either party -/

namespace Tlsn.Mpc

open Hmac Kex

/-! ## Histories of the PRF -/

theorem runOps_append (S : Sha) (xs ys : List PrfOp) (s : Prf × Vm) :
    runOps S (xs ++ ys) s = (runOps S xs s >>= runOps S ys) := by
  induction xs generalizing s with
  | nil => rfl
  | cons x xs ih =>
    simp only [List.cons_append, runOps]
    cases h : x.step S s with
    | ok a => simp only [Outcome.bind_ok, ih]
    | err e => rfl
    | panic => rfl

/-- What the machine holds only grows. -/
def Grows (vm vm' : Vm) : Prop := vm.committed.Le vm'.committed ∧ vm.executed.Le vm'.executed

theorem Grows.refl (vm : Vm) : Grows vm vm := ⟨env_le_refl _, env_le_refl _⟩

theorem Grows.trans {a b c : Vm} (h1 : Grows a b) (h2 : Grows b c) : Grows a c :=
  ⟨env_le_trans h1.1 h2.1, env_le_trans h1.2 h2.2⟩

theorem step_grows {S : Sha} {C : PrfCtx} (hC : C.Ok) {op : PrfOp} {p p' : Prf} {vm vm' : Vm} {g : PrfFns}
    (h : PrfInv S C (p, vm) g) (hs : op.step S (p, vm) = .ok (p', vm')) : Grows vm vm' := by
  cases op with
  | clientRandom r => cases hs; exact Grows.refl _
  | serverRandom r => obtain ⟨_, _, hs⟩ := Outcome.bind_eq_ok.mp hs; cases hs; exact Grows.refl _
  | sessionHash r => obtain ⟨_, _, hs⟩ := Outcome.bind_eq_ok.mp hs; cases hs; exact Grows.refl _
  | cfHash r => obtain ⟨_, _, hs⟩ := Outcome.bind_eq_ok.mp hs; cases hs; exact Grows.refl _
  | sfHash r => obtain ⟨_, _, hs⟩ := Outcome.bind_eq_ok.mp hs; cases hs; exact Grows.refl _
  | flush =>
    obtain ⟨_, _, _, ho, _⟩ := prf_flush_inv hC h hs
    exact ⟨ho.le, by rw [ho.executed]; exact env_le_refl _⟩
  | execute => cases hs; exact ⟨env_le_refl _, h.le⟩
  | alloc len => cases hs; exact Grows.refl _
  | other id v =>
    obtain ⟨vm1, h1, hs⟩ := Outcome.bind_eq_ok.mp hs
    cases hs
    obtain ⟨a, b, _⟩ := assign_le h1
    exact ⟨a, by rw [b]; exact env_le_refl _⟩

theorem runOps_grows {S : Sha} {C : PrfCtx} (hC : C.Ok) {mode : MsMode} (ops : List PrfOp) (pre : List PrfOp) {p p' : Prf}
    {vm vm' : Vm} {g : PrfFns} (h : PrfInv S C (p, vm) g) (hl : Link mode pre p g) (ho : SetOnce (pre ++ ops))
    (ha : Apart C.lo C.hi ops) (hs : runOps S ops (p, vm) = .ok (p', vm')) : Grows vm vm' := by
  induction ops generalizing pre p vm g with
  | nil => cases hs; exact Grows.refl _
  | cons op ops ih =>
    obtain ⟨⟨p1, vm1⟩, h1, hs⟩ := Outcome.bind_eq_ok.mp hs
    have e : pre ++ op :: ops = (pre ++ [op]) ++ ops := by simp
    rw [e] at ho
    obtain ⟨g1, i1, l1⟩ := step_inv hC h hl ho.prefix (fun id v h => ha id v (h ▸ List.mem_cons_self)) h1
    exact (step_grows hC h h1).trans (ih (pre ++ [op]) i1 l1 ho (fun id v hm => ha id v (List.mem_cons_of_mem _ hm)) hs)

/-- A history that sets nothing. -/
def Quiet (ops : List PrfOp) : Prop :=
  clientRandoms ops = [] ∧ serverRandoms ops = [] ∧ sessionHashes ops = [] ∧ cfHashes ops = [] ∧ sfHashes ops = []

theorem Quiet.append {a b : List PrfOp} (ha : Quiet a) (hb : Quiet b) : Quiet (a ++ b) := by
  obtain ⟨h1, h2, h3, h4, h5⟩ := ha
  obtain ⟨k1, k2, k3, k4, k5⟩ := hb
  simp only [Quiet, clientRandoms, serverRandoms, sessionHashes, cfHashes, sfHashes, List.filterMap_append] at *
  simp [h1, h2, h3, h4, h5, k1, k2, k3, k4, k5]

/-- The flush loop is flushes and executions. -/
theorem flushPrf_ops {S : Sha} (n : Nat) {p p' : Prf} {vm vm' : Vm} (h : flushPrf S n p vm = some (.ok (p', vm'))) :
    ∃ ops, Quiet ops ∧ (∀ id v, PrfOp.other id v ∉ ops) ∧ runOps S ops (p, vm) = .ok (p', vm') := by
  induction n generalizing p vm with
  | zero =>
    simp only [flushPrf] at h
    split at h
    · cases h
    · cases h; exact ⟨[], by simp [Quiet, clientRandoms, serverRandoms, sessionHashes, cfHashes, sfHashes], by simp, rfl⟩
  | succ n ih =>
    simp only [flushPrf] at h
    split at h
    · split at h
      · rename_i p1 vm1 hf
        obtain ⟨ops, q, no, hr⟩ := ih h
        refine ⟨.flush :: .execute :: ops, ?_, ?_, ?_⟩
        · obtain ⟨q1, q2, q3, q4, q5⟩ := q
          exact ⟨q1, q2, q3, q4, q5⟩
        · intro id v hm; simp at hm; exact no id v hm
        · show ((p.flush S vm) >>= runOps S (.execute :: ops)) = _
          rw [hf]
          exact hr
      · cases h
      · cases h
    · cases h; exact ⟨[], by simp [Quiet, clientRandoms, serverRandoms, sessionHashes, cfHashes, sfHashes], by simp, rfl⟩

/-! ## The invariant -/

/-- The machinery of a party after the PRF has seen the history `ops`.  The key exchange has its inputs from `n` on. -/
structure CoreInv (D : Deps) (cfg : Limits) (n : Nat) (ops : List PrfOp) (c : Core) : Prop where
  run : ∃ vm0 prf0 vm1, vm0.Fresh ∧ vm0.next = n + 5 ∧ vm0.committed (n + 4) = some modulusBytes ∧
    allocPrf D.sha ⟨cfg.network, .standard⟩ vm0 (outAt D.add n (·.1)) = .ok (prf0, vm1, c.out) ∧
    Apart vm0.next vm1.next ops ∧ runOps D.sha ops (prf0, vm1) = .ok (c.prf, c.vm)
  once : SetOnce ops

theorem CoreInv.prfRun {D : Deps} {cfg : Limits} {n : Nat} {ops : List PrfOp} {c : Core} (h : CoreInv D cfg n ops c) :
    PrfRun D.sha ⟨cfg.network, .standard⟩ (outAt D.add n (·.1)) ops c.prf c.vm c.out := by
  obtain ⟨vm0, prf0, vm1, h1, -, -, h4, h5, h6⟩ := h.run
  exact ⟨⟨vm0, prf0, vm1, h1, h4, h5, h6⟩, outAt_sized _ _, (by decide : 32 ≤ 64), h.once⟩

/-- Further operations. -/
theorem CoreInv.extend {D : Deps} {cfg : Limits} {n : Nat} {ops ops' : List PrfOp} {c c' : Core} (h : CoreInv D cfg n ops c)
    (ho : c'.out = c.out) (hr : runOps D.sha ops' (c.prf, c.vm) = .ok (c'.prf, c'.vm)) (hs : SetOnce (ops ++ ops'))
    (hid : ∀ id v, PrfOp.other id v ∈ ops' → id < n + 5) : CoreInv D cfg n (ops ++ ops') c' ∧ Grows c.vm c'.vm := by
  obtain ⟨C, g, hC, hsec, hi, hl, -⟩ := prfRun_inv h.prfRun
  obtain ⟨vm0, prf0, vm1, h1, h2, h3, h4, h5, h6⟩ := h.run
  refine ⟨⟨⟨vm0, prf0, vm1, h1, h2, h3, by rw [ho]; exact h4, ?_, ?_⟩, hs⟩, ?_⟩
  · intro id v hm
    rcases List.mem_append.1 hm with hm | hm
    · exact h5 id v hm
    · exact Or.inl (by rw [h2]; exact hid id v hm)
  · rw [runOps_append, h6]; exact hr
  · obtain ⟨C', prf0', vm1', out', g0, a1, a2, a3, a4, -, -, -, -, -, -, a11, -, a13, -⟩ :=
      allocPrf_ok D.sha ⟨cfg.network, .standard⟩ vm0 h1 (outAt D.add n (·.1)) (outAt_sized _ _) (by decide : 32 ≤ 64)
    rw [a1] at h4
    cases h4
    rw [← a3, ← a4] at h5
    obtain ⟨g', i, l⟩ := runOps_inv a2 ops [] a11 a13 h.once h5 h6
    refine runOps_grows a2 ops' ops i l hs ?_ hr
    intro id v hm
    exact Or.inl (by rw [a3, h2]; exact hid id v hm)

theorem CoreInv.le {D : Deps} {cfg : Limits} {n : Nat} {ops : List PrfOp} {c : Core} (h : CoreInv D cfg n ops c) :
    c.vm.executed.Le c.vm.committed := by
  obtain ⟨C, g, hC, hsec, hi, -⟩ := prfRun_inv h.prfRun
  exact hi.le

theorem CoreInv.modulus {D : Deps} {cfg : Limits} {n : Nat} {ops : List PrfOp} {c : Core} (h : CoreInv D cfg n ops c) :
    c.vm.committed (n + 4) = some modulusBytes := by
  obtain ⟨vm0, prf0, vm1, h1, h2, h3, h4, h5, h6⟩ := h.run
  obtain ⟨C', prf0', vm1', out', g0, a1, a2, a3, a4, -, -, -, -, -, -, a11, -, a13, a14, -⟩ :=
    allocPrf_ok D.sha ⟨cfg.network, .standard⟩ vm0 h1 (outAt D.add n (·.1)) (outAt_sized _ _) (by decide : 32 ≤ 64)
  rw [a1] at h4
  cases h4
  rw [← a3, ← a4] at h5
  have := (runOps_grows a2 ops [] a11 a13 h.once h5 h6).1 (n + 4) modulusBytes
  rw [a14] at this
  exact this h3

theorem setOnce_quiet {a b : List PrfOp} (h : SetOnce a) (hb : Quiet b) : SetOnce (a ++ b) := by
  obtain ⟨k1, k2, k3, k4, k5⟩ := hb
  obtain ⟨h1, h2, h3, h4, h5⟩ := h
  constructor <;> simp only [clientRandoms, serverRandoms, sessionHashes, cfHashes, sfHashes, List.filterMap_append] at * <;>
    simp only [k1, k2, k3, k4, k5, List.append_nil] <;> assumption

/-- The flush of the PRF. -/
theorem Core.flushPrf_ok {D : Deps} {cfg : Limits} {n : Nat} {ops : List PrfOp} {c c' : Core} (h : CoreInv D cfg n ops c)
    (hf : c.flushPrf D = .ok c') : ∃ ops', Quiet ops' ∧ CoreInv D cfg n (ops ++ ops') c' ∧ Grows c.vm c'.vm ∧
      c' = { c with prf := c'.prf, vm := c'.vm } := by
  unfold Core.flushPrf at hf
  split at hf
  · rename_i prf vm hr
    cases hf
    obtain ⟨ops', q, no, hr⟩ := flushPrf_ops _ hr
    obtain ⟨a, b⟩ := h.extend (c' := { c with prf, vm }) rfl hr (setOnce_quiet h.once q) (fun id v hm => absurd hm (no id v))
    exact ⟨ops', q, a, b, rfl⟩
  · cases hf
  · cases hf
  · cases hf

/-- The machinery after allocation. -/
theorem Core.alloc_ok {D : Deps} {cfg : Limits} {role : Role} {sk : Nat} {otp : Bytes} {vm : Vm} (hvm : vm.Fresh) :
    ∃ c, Core.alloc D cfg role sk otp vm = .ok c ∧ CoreInv D cfg vm.next [] c ∧ c.ready = false ∧
      c.rl = RecordLayer.online role otp cfg.maxSentRecords cfg.maxRecvRecordsOnline cfg.maxSent cfg.maxRecvOnline cfg.maxRecv ∧
      c.ke.state = .setup (slotsAt D.add vm.next) ∧
      c.ke.role = (match role with | .leader => .leader | .follower => .follower) := by
  have hfr : (vmAlloc vm).Fresh := by
    constructor
    · intro id hid
      simp only [vmAlloc] at hid ⊢
      rw [if_neg (by omega)]
      exact hvm.unused id (by omega)
    · intro id v hv
      simp only [vmAlloc] at hv ⊢
      have := hvm.le id v hv
      have hne : id ≠ vm.next + 4 := by
        rintro rfl
        rw [hvm.unused _ (by omega)] at this
        cases this
      rw [if_neg hne]
      exact this
  obtain ⟨prf, vm', out, ha⟩ := C44_alloc D.sha ⟨cfg.network, .standard⟩ (vmAlloc vm) hfr (outAt D.add vm.next (·.1))
    (outAt_sized _ _) (by decide : 32 ≤ 64)
  unfold Core.alloc
  simp only
  rw [alloc_fresh D.add rfl hvm]
  simp only
  have ha' : (Prf.new ⟨cfg.network, .standard⟩).allocPms D.sha (vmAlloc vm) (outAt D.add vm.next (·.1)) = .ok (prf, vm', out) := ha
  rw [ha']
  refine ⟨_, rfl, ⟨⟨vmAlloc vm, prf, vm', hfr, rfl, by simp [vmAlloc], ha, ?_, rfl⟩, ?_⟩, rfl, rfl, rfl, ?_⟩
  · intro id v hm; cases hm
  · constructor <;> simp [clientRandoms, serverRandoms, sessionHashes, cfHashes, sfHashes]
  · cases role <;> rfl

theorem CoreInv.congr {D : Deps} {cfg : Limits} {n : Nat} {ops : List PrfOp} {c c' : Core} (h : CoreInv D cfg n ops c)
    (ho : c'.out = c.out) (hp : c'.prf = c.prf) (hv : c'.vm = c.vm) : CoreInv D cfg n ops c' := by
  obtain ⟨r, o⟩ := h
  rw [← ho, ← hp, ← hv] at r
  exact ⟨r, o⟩

/-- An input of the key exchange is an operation of another component for the PRF. -/
theorem assign_inp {S : Sha} {vm vm' : Vm} {i : Nat} {v : Bytes} (h : vm.assign (inp i) v = .ok vm') (p : Prf) :
    v.length = 32 ∧ vm'.committed i = some v ∧ PrfOp.step S (p, vm) (.other i v) = .ok (p, vm') := by
  have hl : v.length = 32 := by
    by_contra hn
    have hn' : vm.assign (inp i) v = .err .vm := if_pos hn
    rw [hn'] at h
    cases h
  refine ⟨hl, (assign_le h).2.2, ?_⟩
  show (vm.assign ⟨some i, v.length, Ref.input i v.length⟩ v >>= fun vm => .ok (p, vm)) = _
  rw [hl]
  have : vm.assign ⟨some i, 32, Ref.input i 32⟩ v = .ok vm' := h
  rw [this]
  rfl

/-- Two inputs. -/
theorem CoreInv.assign2 {D : Deps} {cfg : Limits} {n : Nat} {ops : List PrfOp} {c c' : Core} (h : CoreInv D cfg n ops c)
    {i j : Nat} (hi : i < n + 5) (hj : j < n + 5) {v0 v1 : Bytes} {vm1 : Vm} (h0 : c.vm.assign (inp i) v0 = .ok vm1)
    (h1 : vm1.assign (inp j) v1 = .ok c'.vm) (ho : c'.out = c.out) (hp : c'.prf = c.prf) :
    ∃ ops', Quiet ops' ∧ CoreInv D cfg n (ops ++ ops') c' ∧ Grows c.vm c'.vm ∧
      c'.vm.committed i = some v0 ∧ c'.vm.committed j = some v1 := by
  obtain ⟨-, a2, a3⟩ := assign_inp (S := D.sha) h0 c.prf
  obtain ⟨-, b2, b3⟩ := assign_inp (S := D.sha) h1 c.prf
  have q : Quiet [.other i v0, .other j v1] := ⟨rfl, rfl, rfl, rfl, rfl⟩
  have hr : runOps D.sha [.other i v0, .other j v1] (c.prf, c.vm) = .ok (c'.prf, c'.vm) := by
    simp only [runOps]
    rw [a3]
    simp only [Outcome.bind_ok]
    rw [b3, hp]
    rfl
  obtain ⟨x, y⟩ := h.extend (c' := c') ho hr (setOnce_quiet h.once q) (by
    intro id v hm
    simp only [List.mem_cons, PrfOp.other.injEq, List.not_mem_nil, or_false] at hm
    rcases hm with ⟨rfl, -⟩ | ⟨rfl, -⟩ <;> assumption)
  exact ⟨_, q, x, y, (assign_le h1).1 _ _ a2, b2⟩

/-- The values of the circuit for the shares of a party and of its peer. -/
def secretOf (D : Deps) (role : Kex.Role) (p0 p1 : Fp) (o : Bytes × Bytes) : Bytes × Bytes × Bytes :=
  match role with
  | .leader => pmsCall D.add (fpBytes p0) o.1 (fpBytes p1) o.2 modulusBytes
  | .follower => pmsCall D.add o.1 (fpBytes p0) o.2 (fpBytes p1) modulusBytes

theorem storeShares_ok {k k' : Kx} {r0 r1 : Outcome KxError Fp} (h : k.storeShares r0 r1 = (k', .ok ())) :
    ∃ fk s p0 p1, k.state = .followerKey fk s ∧ r0 = .ok p0 ∧ r1 = .ok p1 ∧ k' = { k with state := .computed s p0 p1 } := by
  unfold Kx.storeShares at h
  split at h
  · rename_i s e hs
    split at h
    · rename_i p0 p1
      cases h
      unfold Kx.sharePoint at hs
      split at hs
      · rename_i fk s' hst
        split at hs
        · cases hs
        · obtain ⟨p, -, hs⟩ := Outcome.bind_eq_ok.mp hs
          cases hs
          exact ⟨fk, _, p0, p1, hst, rfl, rfl, rfl⟩
      · cases hs
    all_goals cases h
  · cases h
  · cases h

theorem liftKx_ok {α : Type} {a b : α} {r : Outcome KxError Unit} (h : liftKx a r = .ok b) : r = .ok () ∧ b = a := by
  rcases r with ⟨⟩ | _ | _
  · cases h; exact ⟨rfl, rfl⟩
  · cases h
  · cases h

/-- What the key exchange achieves, for either party. -/
structure Exchanged (D : Deps) (cfg : Limits) (n : Nat) (ops : List PrfOp) (c c' : Core) (w : World) (key : Bytes) (p0 p1 : Fp)
    (o : Bytes × Bytes) : Prop where
  parsed : (D.parseKey key).isSome = true
  share0 : w.share0 = .ok p0
  share1 : w.share1 = .ok p1
  peer : ∀ v, w.peerShares = some v → o = v
  grows : Grows c.vm c'.vm
  ready : c'.ready = true
  rl : c'.rl = c.rl
  out : c'.out = c.out
  complete : c'.ke.state = .complete
  role : c'.ke.role = c.ke.role
  agree : (secretOf D c.ke.role p0 p1 o).1 = (secretOf D c.ke.role p0 p1 o).2.1
  secret : c'.vm.recv (outAt D.add n (·.1)).val = some (secretOf D c.ke.role p0 p1 o).1
  mpcOk : w.mpcOk = true

theorem Core.peerAssign_ok {D : Deps} {cfg : Limits} {n : Nat} {ops : List PrfOp} {c c' : Core} (h : CoreInv D cfg n ops c)
    {p0 p1 : Fp} (hk : c.ke.state = .computed (slotsAt D.add n) p0 p1) {sh : Option (Bytes × Bytes)}
    (hx : c.peerAssign sh = .ok c') :
    ∃ ops', Quiet ops' ∧ CoreInv D cfg n (ops ++ ops') c' ∧ Grows c.vm c'.vm ∧ c' = { c with vm := c'.vm } ∧
      ∀ v, sh = some v → match c.ke.role with
        | .leader => c'.vm.committed (n + 1) = some v.1 ∧ c'.vm.committed (n + 3) = some v.2
        | .follower => c'.vm.committed n = some v.1 ∧ c'.vm.committed (n + 2) = some v.2 := by
  unfold Core.peerAssign at hx
  rw [hk] at hx
  cases sh with
  | none =>
    cases hx
    exact ⟨[], ⟨rfl, rfl, rfl, rfl, rfl⟩, by simpa using h, Grows.refl _, rfl, fun v hv => (by cases hv)⟩
  | some v =>
    obtain ⟨v0, v1⟩ := v
    cases hr : c.ke.role with
    | leader =>
      simp only [hr, slotsAt] at hx
      split at hx
      · rename_i vm1 h0
        split at hx
        · rename_i vm2 h1
          cases hx
          obtain ⟨ops', q, a, b, c1, c2⟩ := h.assign2 (c' := { c with vm := vm2 }) (by omega) (by omega) h0 h1 rfl rfl
          exact ⟨ops', q, a, b, rfl, fun v hv => (by cases hv; exact ⟨c1, c2⟩)⟩
        · cases hx
      · cases hx
    | follower =>
      simp only [hr, slotsAt] at hx
      split at hx
      · rename_i vm1 h0
        split at hx
        · rename_i vm2 h1
          cases hx
          obtain ⟨ops', q, a, b, c1, c2⟩ := h.assign2 (c' := { c with vm := vm2 }) (by omega) (by omega) h0 h1 rfl rfl
          exact ⟨ops', q, a, b, rfl, fun v hv => (by cases hv; exact ⟨c1, c2⟩)⟩
        · cases hx
      · cases hx

theorem Core.assign_ok {D : Deps} {cfg : Limits} {n : Nat} {ops : List PrfOp} {c c' : Core} (h : CoreInv D cfg n ops c)
    {p0 p1 : Fp} (hk : c.ke.state = .computed (slotsAt D.add n) p0 p1) (hx : c.assign = .ok c') :
    ∃ ops', Quiet ops' ∧ CoreInv D cfg n (ops ++ ops') c' ∧ Grows c.vm c'.vm ∧
      c' = { c with vm := c'.vm, ke := { c.ke with state := .equalityCheck (outAt D.add n (·.2.2)).val } } ∧
      match c.ke.role with
        | .leader => c'.vm.committed n = some (fpBytes p0) ∧ c'.vm.committed (n + 2) = some (fpBytes p1)
        | .follower => c'.vm.committed (n + 1) = some (fpBytes p0) ∧ c'.vm.committed (n + 3) = some (fpBytes p1) := by
  unfold Core.assign at hx
  obtain ⟨hr, e⟩ := liftKx_ok hx
  rcases assign_cases c.ke c.vm with ⟨s, q0, q1, vm1, vm2, hs, h0, h1, he⟩ | ⟨-, e, he⟩
  · rw [hk] at hs
    cases hs
    rw [he] at e
    have ev : c'.vm = vm2 := by rw [e]
    have eo : c'.out = c.out := by rw [e]
    have ep : c'.prf = c.prf := by rw [e]
    have e' : c' = { c with vm := c'.vm, ke := { c.ke with state := .equalityCheck (outAt D.add n (·.2.2)).val } } := by
      rw [ev]; exact e
    rw [← ev] at h1
    unfold Kx.ownSlots at h0 h1
    generalize c.ke.role = role at h0 h1 ⊢
    cases role with
    | leader =>
      obtain ⟨ops', q, a, b, c1, c2⟩ := h.assign2 (i := n) (j := n + 2) (by omega) (by omega) h0 h1 eo ep
      exact ⟨ops', q, a, b, e', c1, c2⟩
    | follower =>
      obtain ⟨ops', q, a, b, c1, c2⟩ := h.assign2 (i := n + 1) (j := n + 3) (by omega) (by omega) h0 h1 eo ep
      exact ⟨ops', q, a, b, e', c1, c2⟩
  · rw [he] at hr; cases hr

theorem Core.exchange_ok {D : Deps} {cfg : Limits} {n : Nat} {ops : List PrfOp} {c c' : Core} (h : CoreInv D cfg n ops c)
    {fk : Point} (hk : c.ke.state = .followerKey fk (slotsAt D.add n)) {w : World} {key : Bytes}
    (hx : c.exchange D w key = .ok c') :
    ∃ ops' p0 p1 o, Quiet ops' ∧ CoreInv D cfg n (ops ++ ops') c' ∧ Exchanged D cfg n ops c c' w key p0 p1 o := by
  unfold Core.exchange at hx
  split at hx
  · cases hx
  · rename_i P hP
    obtain ⟨c1, h1, hx⟩ := Outcome.bind_eq_ok.mp hx
    obtain ⟨c2, h2, hx⟩ := Outcome.bind_eq_ok.mp hx
    obtain ⟨c3, h3, hx⟩ := Outcome.bind_eq_ok.mp hx
    obtain ⟨c4, h4, hx⟩ := Outcome.bind_eq_ok.mp hx
    obtain ⟨c5, h5, hx⟩ := Outcome.bind_eq_ok.mp hx
    -- the shares
    obtain ⟨hr1, e1⟩ := liftKx_ok h1
    obtain ⟨fk', s, p0, p1, k1, k2, k3, k4⟩ := storeShares_ok (Prod.ext rfl hr1)
    have k1' : c.ke.state = .followerKey fk' s := k1
    rw [hk] at k1'
    cases k1'
    replace e1 : c1 = { c with ke := { c.ke.setServerKey P with state := .computed (slotsAt D.add n) p0 p1 } } := by
      rw [e1]
      exact congrArg (fun k => ({ c with ke := k } : Core)) k4
    have i1 : CoreInv D cfg n ops c1 := h.congr (by rw [e1]) (by rw [e1]) (by rw [e1])
    have s1 : c1.ke.state = .computed (slotsAt D.add n) p0 p1 := by rw [e1]
    have r1 : c1.ke.role = c.ke.role := by rw [e1]; rfl
    -- the peer
    obtain ⟨ops2, q2, i2, g2, e2, pr2⟩ := Core.peerAssign_ok i1 s1 h2
    have s2 : c2.ke.state = .computed (slotsAt D.add n) p0 p1 := by rw [e2]; exact s1
    have r2 : c2.ke.role = c.ke.role := by rw [e2]; exact r1
    obtain ⟨ops3, q3, i3, g3, e3, ow3⟩ := Core.assign_ok i2 s2 h3
    have s3 : c3.ke.state = .equalityCheck (outAt D.add n (·.2.2)).val := by rw [e3]
    have r3 : c3.ke.role = c.ke.role := by rw [e3]; exact r2
    obtain ⟨ops4, q4, i4, g4, e4⟩ := Core.flushPrf_ok i3 h4
    have s4 : c4.ke.state = .equalityCheck (outAt D.add n (·.2.2)).val := by rw [e4]; exact s3
    have r4 : c4.ke.role = c.ke.role := by rw [e4]; exact r3
    obtain ⟨hr5, e5⟩ := liftKx_ok h5
    rcases finalize_cases c4.ke c4.vm with ⟨eq, z1, z2, z3⟩ | ⟨-, e, he⟩
    · rw [s4] at z1
      cases z1
      rw [z3] at e5
      unfold Core.setup at hx
      split at hx
      · rename_i hmpc
        cases hx
        have hvm : c5.vm = c4.vm := by rw [e5]
        have i5 : CoreInv D cfg n (ops ++ ops2 ++ ops3 ++ ops4) { c5 with ready := true } :=
          i4.congr (by rw [e5]) (by rw [e5]) (by rw [e5])
        obtain ⟨v0, v1, v2, v3, v4, w0, w1, w2, w3, w4, hz⟩ := outAt_run.1 z2
        have le := i4.le
        have m4 : v4 = modulusBytes := Option.some.inj ((le _ _ w4.1).symm.trans i4.modulus)
        have hag := (pmsCall_check D.add v0 v1 v2 v3 v4).1 hz.symm
        have hsec : c4.vm.recv (outAt D.add n (·.1)).val = some (pmsCall D.add v0 v1 v2 v3 v4).1 :=
          outAt_run.2 ⟨v0, v1, v2, v3, v4, w0, w1, w2, w3, w4, rfl⟩
        subst m4
        have gr : Grows c.vm c5.vm := by
          rw [hvm]
          have : c1.vm = c.vm := by rw [e1]
          rw [← this]
          exact ((g2.trans g3).trans g4)
        rw [r2] at ow3
        rw [r1] at pr2
        -- values of the inputs
        have val : ∀ i v v', c3.vm.committed i = some v → c4.vm.executed i = some v' → v' = v := by
          intro i v v' a b
          exact Option.some.inj ((le _ _ b).symm.trans (g4.1 _ _ a))
        have val2 : ∀ i v v', c2.vm.committed i = some v → c4.vm.executed i = some v' → v' = v :=
          fun i v v' a b => val i v v' (g3.1 _ _ a) b
        have q : Quiet (ops2 ++ (ops3 ++ ops4)) := q2.append (q3.append q4)
        have i5' : CoreInv D cfg n (ops ++ (ops2 ++ (ops3 ++ ops4))) { c5 with ready := true } := by
          simpa only [List.append_assoc] using i5
        have rl5 : c5.rl = c.rl := by rw [e5, e4, e3, e2, e1]
        have out5 : c5.out = c.out := by rw [e5, e4, e3, e2, e1]
        have st5 : c5.ke.state = .complete := by rw [e5]
        have ro5 : c5.ke.role = c.ke.role := by rw [e5]; exact r4
        cases hrole : c.ke.role with
        | leader =>
          rw [hrole] at ow3
          simp only [hrole] at pr2
          obtain rfl := val _ _ _ ow3.1 w0.1
          obtain rfl := val _ _ _ ow3.2 w2.1
          refine ⟨_, p0, p1, (v1, v3), q, i5', ⟨by rw [hP]; rfl, k2, k3, ?_, gr, rfl, rl5, out5, st5, ro5, ?_, ?_, hmpc⟩⟩
          · intro v hv
            obtain ⟨a, b⟩ := pr2 v hv
            exact Prod.ext (val2 _ _ _ a w1.1) (val2 _ _ _ b w3.1)
          · rw [hrole]; exact hag
          · rw [hrole]; show c5.vm.recv _ = _; rw [hvm]; exact hsec
        | follower =>
          rw [hrole] at ow3
          simp only [hrole] at pr2
          obtain rfl := val _ _ _ ow3.1 w1.1
          obtain rfl := val _ _ _ ow3.2 w3.1
          refine ⟨_, p0, p1, (v0, v2), q, i5', ⟨by rw [hP]; rfl, k2, k3, ?_, gr, rfl, rl5, out5, st5, ro5, ?_, ?_, hmpc⟩⟩
          · intro v hv
            obtain ⟨a, b⟩ := pr2 v hv
            exact Prod.ext (val2 _ _ _ a w0.1) (val2 _ _ _ b w2.1)
          · rw [hrole]; exact hag
          · rw [hrole]; show c5.vm.recv _ = _; rw [hvm]; exact hsec
      · cases hx
    · rw [he] at hr5; cases hr5

end Tlsn.Mpc
