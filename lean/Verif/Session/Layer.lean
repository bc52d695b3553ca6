import Verif.Session.Core

/-! # The record layer and the finished messages of a connection, for either party -/

namespace Tlsn.Mpc

open Hmac Kex

/-! ## Finished messages -/

theorem once_nil {ops : List PrfOp} (h : SetOnce ops) {op : PrfOp}
    (h1 : ∀ r, op = .clientRandom r → clientRandoms ops = []) (h2 : ∀ r, op = .serverRandom r → serverRandoms ops = [])
    (h3 : ∀ r, op ≠ .sessionHash r) (h4 : ∀ r, op = .cfHash r → cfHashes ops = [])
    (h5 : ∀ r, op = .sfHash r → sfHashes ops = []) {q : List PrfOp} (hq : Quiet q) : SetOnce (ops ++ op :: q) := by
  obtain ⟨k1, k2, k3, k4, k5⟩ := hq
  obtain ⟨e1, e2, e3, e4, e5⟩ := h
  cases op with
  | sessionHash r => exact absurd rfl (h3 r)
  | clientRandom r =>
    have := h1 r rfl
    constructor <;> simp only [clientRandoms, serverRandoms, sessionHashes, cfHashes, sfHashes, List.filterMap_append,
      List.filterMap_cons] at * <;> simp_all
  | serverRandom r =>
    have := h2 r rfl
    constructor <;> simp only [clientRandoms, serverRandoms, sessionHashes, cfHashes, sfHashes, List.filterMap_append,
      List.filterMap_cons] at * <;> simp_all
  | cfHash r =>
    have := h4 r rfl
    constructor <;> simp only [clientRandoms, serverRandoms, sessionHashes, cfHashes, sfHashes, List.filterMap_append,
      List.filterMap_cons] at * <;> simp_all
  | sfHash r =>
    have := h5 r rfl
    constructor <;> simp only [clientRandoms, serverRandoms, sessionHashes, cfHashes, sfHashes, List.filterMap_append,
      List.filterMap_cons] at * <;> simp_all
  | flush =>
    constructor <;> simp only [clientRandoms, serverRandoms, sessionHashes, cfHashes, sfHashes, List.filterMap_append,
      List.filterMap_cons] at * <;> simp_all
  | execute =>
    constructor <;> simp only [clientRandoms, serverRandoms, sessionHashes, cfHashes, sfHashes, List.filterMap_append,
      List.filterMap_cons] at * <;> simp_all
  | alloc len =>
    constructor <;> simp only [clientRandoms, serverRandoms, sessionHashes, cfHashes, sfHashes, List.filterMap_append,
      List.filterMap_cons] at * <;> simp_all
  | other id v =>
    constructor <;> simp only [clientRandoms, serverRandoms, sessionHashes, cfHashes, sfHashes, List.filterMap_append,
      List.filterMap_cons] at * <;> simp_all

/-- What a history sets, with one operation and quiet ones after it. -/
theorem set_append (ops : List PrfOp) (op : PrfOp) {q : List PrfOp} (hq : Quiet q) :
    clientRandoms (ops ++ op :: q) = clientRandoms ops ++ clientRandoms [op] ∧
    serverRandoms (ops ++ op :: q) = serverRandoms ops ++ serverRandoms [op] ∧
    sessionHashes (ops ++ op :: q) = sessionHashes ops ++ sessionHashes [op] ∧
    cfHashes (ops ++ op :: q) = cfHashes ops ++ cfHashes [op] ∧
    sfHashes (ops ++ op :: q) = sfHashes ops ++ sfHashes [op] := by
  obtain ⟨k1, k2, k3, k4, k5⟩ := hq
  have e : ops ++ op :: q = ops ++ [op] ++ q := by simp
  rw [e]
  simp only [clientRandoms, serverRandoms, sessionHashes, cfHashes, sfHashes] at *
  simp only [List.filterMap_append, k1, k2, k3, k4, k5, List.append_nil]
  trivial

theorem set_quiet (ops : List PrfOp) {q : List PrfOp} (hq : Quiet q) :
    clientRandoms (ops ++ q) = clientRandoms ops ∧ serverRandoms (ops ++ q) = serverRandoms ops ∧
    sessionHashes (ops ++ q) = sessionHashes ops ∧ cfHashes (ops ++ q) = cfHashes ops ∧ sfHashes (ops ++ q) = sfHashes ops := by
  obtain ⟨k1, k2, k3, k4, k5⟩ := hq
  simp only [clientRandoms, serverRandoms, sessionHashes, cfHashes, sfHashes] at *
  simp only [List.filterMap_append, k1, k2, k3, k4, k5, List.append_nil]
  trivial

theorem liftPrf_ok {α : Type} {a : α} {r : Outcome PrfError α} (h : liftPrf r = .ok a) : r = .ok a := by
  rcases r with _ | _ | _ <;> cases h
  rfl

/-- The values a history sets do not include a server random without a client random. -/
theorem CoreInv.sr {D : Deps} {cfg : Limits} {n : Nat} {ops : List PrfOp} {c : Core} (h : CoreInv D cfg n ops c)
    (hs : serverRandoms ops ≠ []) : clientRandoms ops ≠ [] := by
  obtain ⟨C, g, hC, hsec, hi, hl, -⟩ := prfRun_inv h.prfRun
  intro hn
  have := hl.sr (by cases hh : serverRandoms ops with
    | nil => exact absurd hh hs
    | cons a l => rfl)
  rw [hn] at this
  cases this

theorem Core.clientVd_ok {D : Deps} {cfg : Limits} {n : Nat} {ops : List PrfOp} {c : Core} (h : CoreInv D cfg n ops c)
    (hno : cfHashes ops = []) {hash : Vector Byte 32} {r : Core × Bytes} (hx : c.clientVd D hash = .ok r) :
    ∃ q, Quiet q ∧ CoreInv D cfg n (ops ++ .cfHash hash.toList :: q) r.1 ∧ Grows c.vm r.1.vm ∧
      r.1 = { c with prf := r.1.prf, vm := r.1.vm } ∧
      ∃ k cr sr, (outAt D.add n (·.1)).val.run r.1.vm.committed = some k ∧ clientRandoms ops = [cr] ∧ serverRandoms ops = [sr] ∧
        r.2 = D.sha.clientVerifyData (D.sha.masterSecret k cr sr) hash.toList := by
  unfold Core.clientVd at hx
  obtain ⟨prf, h1, hx⟩ := Outcome.bind_eq_ok.mp hx
  obtain ⟨c2, h2, hx⟩ := Outcome.bind_eq_ok.mp hx
  obtain ⟨v, h3, hx⟩ := Outcome.bind_eq_ok.mp hx
  cases hx
  have h1 := liftPrf_ok h1
  have o1 : SetOnce (ops ++ [.cfHash hash.toList]) :=
    once_nil h.once (by simp) (by simp) (by simp) (fun _ _ => hno) (by simp) ⟨rfl, rfl, rfl, rfl, rfl⟩
  obtain ⟨i1, g1⟩ := h.extend (c' := { c with prf := prf }) (ops' := [.cfHash hash.toList]) rfl
    (by simp only [runOps, PrfOp.step, h1, Outcome.bind_ok])
    o1 (by simp)
  obtain ⟨q, hq, i2, g2, e2⟩ := Core.flushPrf_ok i1 h2
  have e : ops ++ [.cfHash hash.toList] ++ q = ops ++ .cfHash hash.toList :: q := by simp
  rw [e] at i2
  refine ⟨q, hq, i2, g1.trans g2, ?_, ?_⟩
  · rw [e2]
  · unfold Core.recv at h3
    split at h3
    · rename_i v' hv
      cases h3
      obtain ⟨k, m, hash', a1, a2, a3, a4⟩ := C44_client_finished i2.prfRun v hv
      obtain ⟨cr, sr, b1, b2, b3⟩ := a2
      obtain ⟨s1, s2, s3, s4, s5⟩ := set_append ops (.cfHash hash.toList) hq
      rw [s1] at b1
      rw [s2] at b2
      rw [s4, hno] at a3
      have a3' : [hash.toList] = [hash'] := a3
      cases a3'
      subst b3
      exact ⟨k, cr, sr, a1, by simpa [clientRandoms] using b1, by simpa [serverRandoms] using b2, a4⟩
    · cases h3

theorem Core.serverVd_ok {D : Deps} {cfg : Limits} {n : Nat} {ops : List PrfOp} {c : Core} (h : CoreInv D cfg n ops c)
    (hno : sfHashes ops = []) {hash : Vector Byte 32} {r : Core × Bytes} (hx : c.serverVd D hash = .ok r) :
    ∃ q, Quiet q ∧ CoreInv D cfg n (ops ++ .sfHash hash.toList :: q) r.1 ∧ Grows c.vm r.1.vm ∧
      r.1 = { c with prf := r.1.prf, vm := r.1.vm } ∧
      ∃ k cr sr, (outAt D.add n (·.1)).val.run r.1.vm.committed = some k ∧ clientRandoms ops = [cr] ∧ serverRandoms ops = [sr] ∧
        r.2 = D.sha.serverVerifyData (D.sha.masterSecret k cr sr) hash.toList := by
  unfold Core.serverVd at hx
  obtain ⟨prf, h1, hx⟩ := Outcome.bind_eq_ok.mp hx
  obtain ⟨c2, h2, hx⟩ := Outcome.bind_eq_ok.mp hx
  obtain ⟨v, h3, hx⟩ := Outcome.bind_eq_ok.mp hx
  cases hx
  have h1 := liftPrf_ok h1
  have o1 : SetOnce (ops ++ [.sfHash hash.toList]) :=
    once_nil h.once (by simp) (by simp) (by simp) (by simp) (fun _ _ => hno) ⟨rfl, rfl, rfl, rfl, rfl⟩
  obtain ⟨i1, g1⟩ := h.extend (c' := { c with prf := prf }) (ops' := [.sfHash hash.toList]) rfl
    (by simp only [runOps, PrfOp.step, h1, Outcome.bind_ok])
    o1 (by simp)
  obtain ⟨q, hq, i2, g2, e2⟩ := Core.flushPrf_ok i1 h2
  have e : ops ++ [.sfHash hash.toList] ++ q = ops ++ .sfHash hash.toList :: q := by simp
  rw [e] at i2
  refine ⟨q, hq, i2, g1.trans g2, ?_, ?_⟩
  · rw [e2]
  · unfold Core.recv at h3
    split at h3
    · rename_i v' hv
      cases h3
      obtain ⟨k, m, hash', a1, a2, a3, a4⟩ := C44_server_finished i2.prfRun v hv
      obtain ⟨cr, sr, b1, b2, b3⟩ := a2
      obtain ⟨s1, s2, s3, s4, s5⟩ := set_append ops (.sfHash hash.toList) hq
      rw [s1] at b1
      rw [s2] at b2
      rw [s5, hno] at a3
      have a3' : [hash.toList] = [hash'] := a3
      cases a3'
      subst b3
      exact ⟨k, cr, sr, a1, by simpa [clientRandoms] using b1, by simpa [serverRandoms] using b2, a4⟩
    · cases h3

theorem Core.setServerRandom_ok {D : Deps} {cfg : Limits} {n : Nat} {ops : List PrfOp} {c c' : Core} (h : CoreInv D cfg n ops c)
    (hno : serverRandoms ops = []) {random : Vector Byte 32} (hx : c.setServerRandom random = .ok c') :
    CoreInv D cfg n (ops ++ [.serverRandom random.toList]) c' ∧ c' = { c with prf := c'.prf } := by
  unfold Core.setServerRandom at hx
  obtain ⟨prf, h1, hx⟩ := Outcome.bind_eq_ok.mp hx
  cases hx
  have h1 := liftPrf_ok h1
  have o1 : SetOnce (ops ++ [.serverRandom random.toList]) :=
    once_nil h.once (by simp) (fun _ _ => hno) (by simp) (by simp) (by simp) ⟨rfl, rfl, rfl, rfl, rfl⟩
  obtain ⟨i1, g1⟩ := h.extend (c' := { c with prf := prf }) (ops' := [.serverRandom random.toList]) rfl
    (by simp only [runOps, PrfOp.step, h1, Outcome.bind_ok])
    o1 (by simp)
  exact ⟨i1, rfl⟩

theorem CoreInv.setClientRandom {D : Deps} {cfg : Limits} {n : Nat} {ops : List PrfOp} {c : Core} (h : CoreInv D cfg n ops c)
    (hno : clientRandoms ops = []) (random : Vector Byte 32) :
    CoreInv D cfg n (ops ++ [.clientRandom random.toList]) { c with prf := c.prf.setClientRandom random.toList } := by
  have o1 : SetOnce (ops ++ [.clientRandom random.toList]) :=
    once_nil h.once (fun _ _ => hno) (by simp) (by simp) (by simp) (by simp) ⟨rfl, rfl, rfl, rfl, rfl⟩
  exact (h.extend (c' := { c with prf := c.prf.setClientRandom random.toList }) rfl rfl o1 (by simp)).1

/-! ## The session keys -/

/-- The functions of the record layer under the keys that the standard derives. -/
def sessionFns (D : Deps) (secret : Bytes) (clientRandom serverRandom : Bytes) : SessionFns :=
  let b := D.sha.keyBlock (D.sha.masterSecret secret clientRandom serverRandom) clientRandom serverRandom
  D.aead (b.take 16) ((b.drop 32).take 4) ((b.drop 16).take 16) ((b.drop 36).take 4)

theorem Core.fns_ok {D : Deps} {cfg : Limits} {n : Nat} {ops : List PrfOp} {c : Core} (h : CoreInv D cfg n ops c)
    {k : SessionFns} (hf : c.fns D = some k) {s cr sr : Bytes} (hs : (outAt D.add n (·.1)).val.run c.vm.committed = some s)
    (hcr : clientRandoms ops = [cr]) (hsr : serverRandoms ops = [sr]) : k = sessionFns D s cr sr := by
  unfold Core.fns at hf
  split at hf
  · rename_i ck ci sk si e1 e2 e3 e4
    cases hf
    have key : ∀ k' b, (outAt D.add n (·.1)).val.run c.vm.committed = some k' → IsKeyBlock D.sha .standard ops k' b →
        b = D.sha.keyBlock (D.sha.masterSecret s cr sr) cr sr := by
      intro k' b hk ⟨m, cr', sr', ⟨cr2, sr2, a1, a2, a3⟩, b1, b2, b3⟩
      subst a3
      rw [hs] at hk; cases hk
      rw [hcr] at a1 b1; cases a1; cases b1
      rw [hsr] at a2 b2; cases a2; cases b2
      exact b3
    obtain ⟨k1, b1, x1, y1, rfl⟩ := (C44_session_keys h.prfRun ck).1 e1
    obtain ⟨k2, b2, x2, y2, rfl⟩ := (C44_session_keys h.prfRun sk).2.1 e3
    obtain ⟨k3, b3, x3, y3, rfl⟩ := (C44_session_keys h.prfRun ci).2.2.1 e2
    obtain ⟨k4, b4, x4, y4, rfl⟩ := (C44_session_keys h.prfRun si).2.2.2 e4
    rw [key _ _ x1 y1, key _ _ x2 y2, key _ _ x3 y3, key _ _ x4 y4]
    rfl
  · cases hf

/-- Nothing that was known is lost. -/
structure Stays (c c' : Core) : Prop where
  out : c'.out = c.out
  vm : Grows c.vm c'.vm
  ready : c.ready = true → c'.ready = true

theorem Stays.fns {D : Deps} {c c' : Core} (h : Stays c c') {k : SessionFns} (hf : c.fns D = some k) : c'.fns D = some k := by
  unfold Core.fns at hf
  split at hf
  · rename_i ck ci sk si e1 e2 e3 e4
    have m : ∀ (r : VecRef) v, c.vm.recv r.val = some v → c'.vm.recv r.val = some v :=
      fun r v hv => r.val.mono _ _ v h.vm.2 hv
    unfold Core.fns
    rw [h.out, m _ _ e1, m _ _ e2, m _ _ e3, m _ _ e4]
    exact hf
  · cases hf

/-! ## The record layer -/

theorem rl_run_append (k : SessionFns) (peer : Nat → Bytes) (r : RecordLayer) (xs ys : List RlCall) :
    r.run k peer (xs ++ ys) =
      (((r.run k peer xs).1.run k peer ys).1, (r.run k peer xs).2 ++ ((r.run k peer xs).1.run k peer ys).2) := by
  induction xs generalizing r with
  | nil => rfl
  | cons x xs ih => simp only [List.cons_append, RecordLayer.run, ih, List.cons_append]

/-- A call that did what it should. -/
def Fine : RlResult → Prop
  | .failed _ => False
  | .panicked => False
  | _ => True

/-- The record layer of a party after the given calls, none of which failed.  The session keys matter only once the record layer
is ready, so before that this holds for whatever they will be. -/
def RlInv (D : Deps) (cfg : Limits) (role : Role) (otp : Bytes) (calls : List RlCall) (c : Core) : Prop :=
  ∀ k, (∀ k', c.ready = true → c.fns D = some k' → k' = k) →
    ((RecordLayer.online role otp cfg.maxSentRecords cfg.maxRecvRecordsOnline cfg.maxSent cfg.maxRecvOnline cfg.maxRecv).run k
      D.peerData calls).1 = c.rl ∧
    ∀ r ∈ ((RecordLayer.online role otp cfg.maxSentRecords cfg.maxRecvRecordsOnline cfg.maxSent cfg.maxRecvOnline
      cfg.maxRecv).run k D.peerData calls).2, Fine r

theorem RlInv.step {D : Deps} {cfg : Limits} {role : Role} {otp : Bytes} {calls : List RlCall} {c c' : Core}
    (h : RlInv D cfg role otp calls c) (hst : Stays c c') (call : RlCall)
    (hc : ∀ k, (∀ k', c'.ready = true → c'.fns D = some k' → k' = k) →
      (c.rl.step k D.peerData call).1 = c'.rl ∧ Fine (c.rl.step k D.peerData call).2) :
    RlInv D cfg role otp (calls ++ [call]) c' := by
  intro k hk
  obtain ⟨h1, h2⟩ := h k (fun k' hr hf => hk k' (hst.ready hr) (hst.fns hf))
  obtain ⟨h3, h4⟩ := hc k hk
  rw [rl_run_append, h1]
  refine ⟨h3, ?_⟩
  intro r hr
  rcases List.mem_append.1 hr with hr | hr
  · exact h2 r hr
  · simp only [RecordLayer.run, List.mem_singleton] at hr
    rw [hr]
    exact h4

theorem RlInv.stays {D : Deps} {cfg : Limits} {role : Role} {otp : Bytes} {calls : List RlCall} {c c' : Core}
    (h : RlInv D cfg role otp calls c) (hst : Stays c c') (hrl : c'.rl = c.rl) : RlInv D cfg role otp calls c' := by
  intro k hk
  rw [hrl]
  exact h k (fun k' hr hf => hk k' (hst.ready hr) (hst.fns hf))

theorem liftRl_ok {c c' : Core} {r : RecordLayer × Except RlError Unit} (h : liftRl c r = .ok c') :
    r.2 = .ok () ∧ c' = { c with rl := r.1 } := by
  obtain ⟨rl, e | ⟨⟩⟩ := r
  · cases h
  · cases h; exact ⟨rfl, rfl⟩

/-- A push onto the record layer. -/
theorem RlInv.push {D : Deps} {cfg : Limits} {role : Role} {otp : Bytes} {calls : List RlCall} {c c' : Core}
    (h : RlInv D cfg role otp calls c) (call : RlCall) (f : RecordLayer × Except RlError Unit)
    (hf : ∀ k, c.rl.step k D.peerData call = (f.1, .ofExcept f.2)) (hx : liftRl c f = .ok c') :
    RlInv D cfg role otp (calls ++ [call]) c' := by
  obtain ⟨h1, rfl⟩ := liftRl_ok hx
  refine h.step (c' := { c with rl := f.1 }) ⟨rfl, Grows.refl _, id⟩ call ?_
  intro k _
  rw [hf, h1]
  exact ⟨rfl, trivial⟩

theorem flushRun_online (k : SessionFns) (peer : Nat → Bytes) (env : FlushEnv) (r : RecordLayer) {o : Option Bytes}
    {s v : List Record} (hs : r.state = .online o s v) (eops : List EncryptOp) (dops : List DecryptOp) :
    ∃ o' s' v', (r.flushRun k peer env o s v eops dops).1.state = .online o' s' v' := by
  unfold RecordLayer.flushRun
  split
  · exact ⟨o, s, v, hs⟩
  · split
    · exact ⟨_, _, _, rfl⟩
    · split
      · exact ⟨_, _, _, rfl⟩
      · simp only
        split
        · exact ⟨_, _, _, rfl⟩
        · split
          · exact ⟨_, _, _, rfl⟩
          · split <;> exact ⟨_, _, _, rfl⟩

theorem flush_online (k : SessionFns) (peer : Nat → Bytes) (env : FlushEnv) (r : RecordLayer) (d : Bool) {o : Option Bytes}
    {s v : List Record} (hs : r.state = .online o s v) : ∃ o' s' v', (r.flush k peer env d).1.state = .online o' s' v' := by
  unfold RecordLayer.flush
  rw [hs]
  simp only
  split
  · exact ⟨o, s, v, hs⟩
  · generalize (if d = true then r.decryptBuffer.length else firstAppData r.decryptBuffer) = pos
    split
    · exact ⟨o, s, v, rfl⟩
    · split
      · exact ⟨o, s, v, rfl⟩
      · refine flushRun_online k peer env _ ?_ _ _
        split <;> rfl

theorem online_state {D : Deps} {cfg : Limits} {role : Role} {otp : Bytes} {calls : List RlCall} {c : Core}
    (h : RlInv D cfg role otp calls c) (hn : ∀ e, RlCall.commit e ∉ calls) : ∃ o s r, c.rl.state = .online o s r := by
  obtain ⟨k, hk⟩ : ∃ k, ∀ k', c.ready = true → c.fns D = some k' → k' = k := by
    cases hf : c.fns D with
    | none => exact ⟨D.aead [] [] [] [], fun k' _ h => (by cases h)⟩
    | some k => exact ⟨k, fun k' _ h => (by cases h; rfl)⟩
  obtain ⟨h1, -⟩ := h k hk
  rw [← h1]
  have key : ∀ (calls : List RlCall) (r : RecordLayer), (∀ e, RlCall.commit e ∉ calls) → (∃ o s v, r.state = .online o s v) →
      ∃ o s v, (r.run k D.peerData calls).1.state = .online o s v := by
    intro calls
    induction calls with
    | nil => intro r _ h; exact h
    | cons x xs ih =>
      intro r hn ⟨o, s, v, hs⟩
      refine ih _ (fun e he => hn e (List.mem_cons_of_mem _ he)) ?_
      cases x with
      | pushEncrypt t ver l p =>
        refine ⟨o, s, v, ?_⟩
        simp only [RecordLayer.step, RecordLayer.pushEncrypt]
        split
        · exact hs
        · split
          · exact hs
          · split <;> exact hs
      | pushDecrypt t ver nc ct tg =>
        refine ⟨o, s, v, ?_⟩
        simp only [RecordLayer.step, RecordLayer.pushDecrypt]
        split
        · exact hs
        · split <;> exact hs
      | startTraffic => exact ⟨o, s, v, hs⟩
      | nextEncrypted =>
        refine ⟨o, s, v, ?_⟩
        simp only [RecordLayer.step, RecordLayer.nextEncrypted]
        split
        · exact hs
        · split <;> exact hs
      | nextDecrypted =>
        refine ⟨o, s, v, ?_⟩
        simp only [RecordLayer.step, RecordLayer.nextDecrypted]
        split
        · exact hs
        · split <;> exact hs
      | commit e => exact absurd List.mem_cons_self (hn e)
      | flush env d =>
        exact flush_online k D.peerData env r d hs
  exact key calls _ hn ⟨_, _, _, rfl⟩

/-- A flush. -/
theorem RlInv.flush {D : Deps} {cfg : Limits} {role : Role} {otp : Bytes} {calls : List RlCall} {c c' : Core}
    (h : RlInv D cfg role otp calls c) (hn : ∀ e, RlCall.commit e ∉ calls) {w : World} {d : Bool}
    (hx : c.flush D w d = .ok c') :
    RlInv D cfg role otp (calls ++ [.flush ⟨true, w.mpcOk⟩ d]) c' ∧ c' = { c with rl := c'.rl } := by
  unfold Core.flush at hx
  split at hx
  · rename_i hr
    split at hx
    · cases hx
    · rename_i k0 hk0
      obtain ⟨h1, e⟩ := liftRl_ok hx
      have st : Stays c c' := ⟨by rw [e], by rw [e]; exact Grows.refl _, by rw [e]; exact id⟩
      refine ⟨h.step st _ ?_, by rw [e]⟩
      intro k hk
      have : k0 = k := hk k0 (st.ready hr) (st.fns hk0)
      subst this
      simp only [RecordLayer.step]
      rw [h1, e]
      exact ⟨rfl, trivial⟩
  · simp only at hx
    have key : ∀ (b : Bool) (x : Core), (if b = true then Outcome.ok x else .err Err.recordLayer) = Outcome.ok c' → b = true ∧ c' = x := by
      intro b x h
      cases b with
      | true => cases h; exact ⟨rfl, rfl⟩
      | false => cases h
    obtain ⟨he, e⟩ := key _ _ hx
    have st : Stays c c' := ⟨by rw [e], by rw [e]; exact Grows.refl _, by rw [e]; exact id⟩
    refine ⟨h.step st _ ?_, by rw [e]⟩
    intro k _
    obtain ⟨o, s, v, hs⟩ := online_state h hn
    simp only [RecordLayer.step, RecordLayer.flush, hs]
    rw [e]
    simp only [Bool.not_true, Bool.false_eq_true, if_false]
    rw [if_pos he, ← hs]
    exact ⟨rfl, trivial⟩

theorem fine_lossless {x : RlCall × RlResult} (h : Fine x.2) : lossless x = true := by
  obtain ⟨c, r⟩ := x
  cases r <;> first | exact h.elim | (cases c <;> rfl)

/-- The records that a commit returns. -/
theorem RlInv.commit {D : Deps} {cfg : Limits} {role : Role} {otp : Bytes} {calls : List RlCall} {c c' : Core}
    (h : RlInv D cfg role otp calls c) (hl : calls.length ≤ 2 ^ 64) {w : World} {sent recv : List Record}
    (hx : c.commit D w = .ok (c', sent, recv)) :
    ∃ k, c.fns D = some k ∧ c.ready = true ∧
      let H := (RecordLayer.online role otp cfg.maxSentRecords cfg.maxRecvRecordsOnline cfg.maxSent cfg.maxRecvOnline
        cfg.maxRecv).history k D.peerData calls
      (∀ x ∈ H, Fine x.2) ∧ sent = (accepted 0 H).map (·.inTranscript k.client D.peerData role) ∧
        recv = (incoming 0 H).map (·.inTranscript k.server role) := by
  unfold Core.commit at hx
  split at hx
  · rename_i hr
    split at hx
    · cases hx
    · rename_i k hk
      split at hx
      · rename_i rl p hc
        cases hx
        obtain ⟨h1, h2⟩ := h k (fun k' _ hf => (by rw [hk] at hf; cases hf; rfl))
        have hfine : ∀ x ∈ (RecordLayer.online role otp cfg.maxSentRecords cfg.maxRecvRecordsOnline cfg.maxSent cfg.maxRecvOnline
            cfg.maxRecv).history k D.peerData calls, Fine x.2 := by
          intro x hx
          exact h2 x.2 (List.of_mem_zip hx).2
        rw [← h1] at hc
        obtain ⟨-, -, a⟩ := C29_commit k D.peerData role otp cfg.maxSentRecords cfg.maxRecvRecordsOnline cfg.maxSent
          cfg.maxRecvOnline cfg.maxRecv calls hl _ _ _ _ hc
        obtain ⟨e1, e2⟩ := a (fun x hx => fine_lossless (hfine x hx))
        exact ⟨k, hk, hr, hfine, e1, e2⟩
      · cases hx
      · cases hx
  · cases hx

end Tlsn.Mpc
