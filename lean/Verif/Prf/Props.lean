import Verif.Prf.Values

/-!
# C44: the PRF in the machine and the PRF in the TLS client compute what the RFCs say

The reference values are those of `Verif.Prf.Spec`; `IsMaster` and `IsKeyBlock` in `Verif.Prf.Values` say which of them
belong to a history.
-/

namespace Tlsn

open Hmac

/-- A PRF that was allocated on some machine for some secret and used in any order, along with other users of the machine.
Every value is set at most once, and the other users do not touch the inputs that belong to the PRF. -/
structure PrfRun (S : Sha) (cfg : PrfConfig) (secret : VecRef) (ops : List PrfOp) (prf : Prf) (vm : Vm) (out : PrfOutput) :
    Prop where
  run : ∃ vm0 prf0 vm1, vm0.Fresh ∧ allocPrf S cfg vm0 secret = .ok (prf0, vm1, out) ∧ Apart vm0.next vm1.next ops ∧
    runOps S ops (prf0, vm1) = .ok (prf, vm)
  sized : secret.Sized
  short : secret.len ≤ 64
  once : SetOnce ops

theorem prfRun_inv {S : Sha} {cfg : PrfConfig} {secret : VecRef} {ops : List PrfOp} {prf : Prf} {vm : Vm} {out : PrfOutput}
    (h : PrfRun S cfg secret ops prf vm out) :
    ∃ C g, C.Ok ∧ C.secret = secret ∧ PrfInv S C (prf, vm) g ∧ Link cfg.ms ops prf g ∧ OutputsOf C out ∧ SeedLens C cfg.ms ∧
      Kinds cfg.network (prf, vm) := by
  obtain ⟨vm0, prf0, vm1, hf, ha, hap, hr⟩ := h.run
  obtain ⟨C, prf0', vm1', out', g, h1, h2, h3, h4, h5, h6, h7, h8, h9, h10, h11, h12, h13, _⟩ :=
    allocPrf_ok S cfg vm0 hf secret h.sized h.short
  rw [h1] at ha
  cases ha
  rw [← h3, ← h4] at hap
  obtain ⟨g', i, l⟩ := runOps_inv h2 ops [] h11 h13 h.once hap hr
  exact ⟨C, g', h2, h5, i, l, h12, ⟨h7, h8, h9, h10⟩, kinds_run ops (kinds_alloc h1) hr⟩

/-- C44: allocation succeeds. -/
theorem C44_alloc (S : Sha) (cfg : PrfConfig) (vm : Vm) (hvm : vm.Fresh) (secret : VecRef) (hs : secret.Sized)
    (hl : secret.len ≤ 64) : ∃ prf vm' out, allocPrf S cfg vm secret = .ok (prf, vm', out) := by
  obtain ⟨_, prf, vm', out, _, h, _⟩ := allocPrf_ok S cfg vm hvm secret hs hl
  exact ⟨prf, vm', out, h⟩

/-- C44: whatever is decoded for a session key, in either network mode, after any history, is its slice of the key block that
RFC 5246 derives from the committed secret and the values set. -/
theorem C44_session_keys {S : Sha} {cfg : PrfConfig} {secret : VecRef} {ops : List PrfOp} {prf : Prf} {vm : Vm} {out : PrfOutput}
    (h : PrfRun S cfg secret ops prf vm out) (v : Bytes) :
    (vm.recv out.keys.clientWriteKey.val = some v →
      ∃ k b, secret.val.run vm.committed = some k ∧ IsKeyBlock S cfg.ms ops k b ∧ v = b.take 16) ∧
    (vm.recv out.keys.serverWriteKey.val = some v →
      ∃ k b, secret.val.run vm.committed = some k ∧ IsKeyBlock S cfg.ms ops k b ∧ v = (b.drop 16).take 16) ∧
    (vm.recv out.keys.clientIv.val = some v →
      ∃ k b, secret.val.run vm.committed = some k ∧ IsKeyBlock S cfg.ms ops k b ∧ v = (b.drop 32).take 4) ∧
    (vm.recv out.keys.serverIv.val = some v →
      ∃ k b, secret.val.run vm.committed = some k ∧ IsKeyBlock S cfg.ms ops k b ∧ v = (b.drop 36).take 4) := by
  obtain ⟨C, g, hC, rfl, hi, hl, ho, _, _⟩ := prfRun_inv h
  obtain ⟨k1, k2, k3, k4⟩ := keys_run ho.ck vm.executed
  have key : ∀ w, (concatRefs C.ck.outs).run vm.executed = some w →
      ∃ k b, C.secret.val.run vm.committed = some k ∧ IsKeyBlock S cfg.ms ops k b ∧ b = w.take 40 :=
    fun w hw => ke_value hC h.once hi hl w ((concatRefs C.ck.outs).mono _ _ w hi.le hw)
  refine ⟨?_, ?_, ?_, ?_⟩ <;> intro hv
  · rw [Vm.recv, k1] at hv
    obtain ⟨w, hw, rfl⟩ := Option.map_eq_some_iff.mp hv
    obtain ⟨k, b, h1, h2, rfl⟩ := key w hw
    exact ⟨k, _, h1, h2, rfl⟩
  · rw [Vm.recv, k2] at hv
    obtain ⟨w, hw, rfl⟩ := Option.map_eq_some_iff.mp hv
    obtain ⟨k, b, h1, h2, rfl⟩ := key w hw
    exact ⟨k, _, h1, h2, rfl⟩
  · rw [Vm.recv, k3] at hv
    obtain ⟨w, hw, rfl⟩ := Option.map_eq_some_iff.mp hv
    obtain ⟨k, b, h1, h2, rfl⟩ := key w hw
    exact ⟨k, _, h1, h2, rfl⟩
  · rw [Vm.recv, k4] at hv
    obtain ⟨w, hw, rfl⟩ := Option.map_eq_some_iff.mp hv
    obtain ⟨k, b, h1, h2, rfl⟩ := key w hw
    exact ⟨k, _, h1, h2, rfl⟩

/-- C44: the verify data of the client, if it is decoded, is that of RFC 5246 for the handshake hash that was set. -/
theorem C44_client_finished {S : Sha} {cfg : PrfConfig} {secret : VecRef} {ops : List PrfOp} {prf : Prf} {vm : Vm}
    {out : PrfOutput} (h : PrfRun S cfg secret ops prf vm out) (v : Bytes) (hv : vm.recv out.cfVd.val = some v) :
    ∃ k m hash, secret.val.run vm.committed = some k ∧ IsMaster S cfg.ms ops k m ∧ cfHashes ops = [hash] ∧
      v = S.clientVerifyData m hash := by
  obtain ⟨C, g, hC, rfl, hi, hl, ho, _, _⟩ := prfRun_inv h
  rw [Vm.recv, merge_run ho.cc] at hv
  obtain ⟨w, hw, rfl⟩ := Option.map_eq_some_iff.mp hv
  exact cf_value hC h.once hi hl w ((concatRefs C.cc.outs).mono _ _ w hi.le hw)

/-- C44: the same for the server. -/
theorem C44_server_finished {S : Sha} {cfg : PrfConfig} {secret : VecRef} {ops : List PrfOp} {prf : Prf} {vm : Vm}
    {out : PrfOutput} (h : PrfRun S cfg secret ops prf vm out) (v : Bytes) (hv : vm.recv out.sfVd.val = some v) :
    ∃ k m hash, secret.val.run vm.committed = some k ∧ IsMaster S cfg.ms ops k m ∧ sfHashes ops = [hash] ∧
      v = S.serverVerifyData m hash := by
  obtain ⟨C, g, hC, rfl, hi, hl, ho, _, _⟩ := prfRun_inv h
  rw [Vm.recv, merge_run ho.cs] at hv
  obtain ⟨w, hw, rfl⟩ := Option.map_eq_some_iff.mp hv
  exact sf_value hC h.once hi hl w ((concatRefs C.cs.outs).mono _ _ w hi.le hw)

/-- What the master secret is derived from has been set. -/
def MasterReady (mode : MsMode) (ops : List PrfOp) : Prop :=
  match mode with
  | .standard => serverRandoms ops ≠ []
  | .extended => sessionHashes ops ≠ []
  | .direct => True

theorem masterReady_seed {mode : MsMode} {ops : List PrfOp} {p : Prf} {g : PrfFns} (hl : Link mode ops p g)
    (h : MasterReady mode ops) : mode = .direct ∨ (msSeed ops mode).isSome = true := by
  cases mode with
  | direct => exact Or.inl rfl
  | extended =>
    right
    cases hs : sessionHashes ops with
    | nil => exact absurd hs h
    | cons a l => simp [msSeed, hs]
  | standard =>
    right
    cases hs : serverRandoms ops with
    | nil => exact absurd hs h
    | cons a l =>
      have := hl.sr (by rw [hs]; rfl)
      obtain ⟨cr, hcr⟩ := Option.isSome_iff_exists.mp this
      simp [msSeed, hs, hcr]

/-- C44: once what the master secret needs is set and the secret is committed, the flush loop ends after at most eleven rounds.
Then everything whose inputs are set can be decoded, and has the value the RFCs give. -/
theorem C44_flush_loop {S : Sha} {cfg : PrfConfig} {secret : VecRef} {ops : List PrfOp} {prf : Prf} {vm : Vm} {out : PrfOutput}
    (h : PrfRun S cfg secret ops prf vm out) (hz : Sizes ops) (hr : MasterReady cfg.ms ops) (k : Bytes)
    (hk : secret.val.run vm.committed = some k) :
    ∃ prf' vm' m, flushPrf S 11 prf vm = some (.ok (prf', vm')) ∧ IsMaster S cfg.ms ops k m ∧
      (prf.wantsFlush = true → vm'.execute = vm') ∧
      (∀ cr sr, clientRandoms ops = [cr] → serverRandoms ops = [sr] →
        vm'.execute.recv out.keys.clientWriteKey.val = some ((S.keyBlock m cr sr).take 16) ∧
        vm'.execute.recv out.keys.serverWriteKey.val = some (((S.keyBlock m cr sr).drop 16).take 16) ∧
        vm'.execute.recv out.keys.clientIv.val = some (((S.keyBlock m cr sr).drop 32).take 4) ∧
        vm'.execute.recv out.keys.serverIv.val = some (((S.keyBlock m cr sr).drop 36).take 4)) ∧
      (∀ hash, cfHashes ops = [hash] → vm'.execute.recv out.cfVd.val = some (S.clientVerifyData m hash)) ∧
      (∀ hash, sfHashes ops = [hash] → vm'.execute.recv out.sfVd.val = some (S.serverVerifyData m hash)) := by
  obtain ⟨C, g, hC, rfl, hi, hl, ho, hL, _⟩ := prfRun_inv h
  have hrdy := masterReady_seed hl hr
  obtain ⟨p', vm', g', hf, hi', hl', hw, hex, hk'⟩ := flush_loop_any hC hL hz hrdy k hi hl hk
  obtain ⟨d0, d1, d2, d3⟩ := idle_done hi' hw
  obtain ⟨m, hm⟩ := ms_known hC hi' k hk' (fun f hf => d0 f hf (hl'.hse hrdy f hf))
  obtain ⟨k', hk'', hmas⟩ := ms_value hC h.once hi' hl' m hm
  rw [hk'] at hk''; cases hk''
  -- only one master secret belongs to the history
  have uniq : ∀ m', IsMaster S cfg.ms ops k m' → m' = m := by
    intro m' h'
    revert h' hmas
    cases cfg.ms with
    | standard =>
      rintro ⟨cr, sr, a1, a2, rfl⟩ ⟨cr', sr', b1, b2, rfl⟩
      rw [a1] at b1; rw [a2] at b2; cases b1; cases b2; rfl
    | extended =>
      rintro ⟨sh, a1, rfl⟩ ⟨sh', b1, rfl⟩
      rw [a1] at b1; cases b1; rfl
    | direct => intro a b; exact Eq.trans b (Eq.symm a)
  refine ⟨p', vm', m, hf, hmas, ?_, ?_, ?_, ?_⟩
  · intro hw'
    have := hex hw'
    cases vm'
    simp only [Vm.execute] at *
    rw [this]
  · intro cr sr hcr hsr
    have hdone := d1 (by rw [hl'.ke, hcr, hsr]; rfl)
    obtain ⟨w, hw'⟩ := outs_known hC.ck hi'.le hi'.fns.ke hdone m (by rw [hC.keys.1]; exact hm)
    obtain ⟨k2, b, e1, ⟨m2, cr2, sr2, e2, e3, e4, rfl⟩, e5⟩ := ke_value hC h.once hi' hl' w hw'
    rw [hk'] at e1; cases e1
    have := uniq m2 e2
    subst this
    rw [hcr] at e3; rw [hsr] at e4; cases e3; cases e4
    obtain ⟨k1, k2, k3, k4⟩ := keys_run ho.ck vm'.committed
    rw [hw', Option.map_some] at k1 k2 k3 k4
    rw [← e5] at k1 k2 k3 k4
    exact ⟨k1, k2, k3, k4⟩
  · intro hash hh
    have hdone := d2 (by rw [hl'.cf, hh]; rfl)
    obtain ⟨w, hw'⟩ := outs_known hC.cc hi'.le hi'.fns.cf hdone m (by rw [hC.keys.2.1]; exact hm)
    obtain ⟨k2, m2, hash2, e1, e2, e3, e4⟩ := cf_value hC h.once hi' hl' w hw'
    rw [hk'] at e1; cases e1
    have := uniq m2 e2
    subst this
    rw [hh] at e3; cases e3
    have := merge_run ho.cc vm'.committed
    rw [hw', Option.map_some, e4] at this
    exact this
  · intro hash hh
    have hdone := d3 (by rw [hl'.sf, hh]; rfl)
    obtain ⟨w, hw'⟩ := outs_known hC.cs hi'.le hi'.fns.sf hdone m (by rw [hC.keys.2.2]; exact hm)
    obtain ⟨k2, m2, hash2, e1, e2, e3, e4⟩ := sf_value hC h.once hi' hl' w hw'
    rw [hk'] at e1; cases e1
    have := uniq m2 e2
    subst this
    rw [hh] at e3; cases e3
    have := merge_run ho.cs vm'.committed
    rw [hw', Option.map_some, e4] at this
    exact this

/-- A function of the reduced mode waits for its key. -/
theorem reduced_waits {S : Sha} {C : PrfCtx} (hC : C.Ok) {mode : MsMode} (hms : mode ≠ .direct) {ops : List PrfOp}
    (hnone : msSeed ops mode = none) (hcf : cfHashes ops ≠ []) {prf : Prf} {vm : Vm} {g : PrfFns} (hi : PrfInv S C (prf, vm) g)
    (hl : Link mode ops prf g) (hkd : Kinds .reduced (prf, vm)) : prf.state = .setup g ∧ prf.wantsFlush = true := by
  have hmsf : ∃ f c, g.masterSecret = some f ∧ C.cm = some c := by
    have h1 := hi.fns.ms
    have h2 := hl.labels.ms
    cases hg : g.masterSecret with
    | none =>
      rw [hg] at h2
      revert h2 hms
      cases mode <;> simp
    | some f =>
      rw [hg] at h1
      cases hc : C.cm with
      | none => rw [hc] at h1; exact h1.elim
      | some c => exact ⟨f, c, rfl, rfl⟩
  obtain ⟨f, c, hg, hc⟩ := hmsf
  have hfi : FnInv S c vm f := by have := hi.fns.ms; rw [hg, hc] at this; exact this
  have hseed : f.seed = none := by rw [hl.ms f hg, hnone]
  have hst : prf.state = .setup g := by
    rcases hi.state with hs | ⟨_, hd⟩
    · exact hs
    · simp only [PrfFns.isDone, Bool.and_eq_true] at hd
      have := hd.1.1.1
      rw [hg] at this
      have := seed_of_done hfi (by simpa using this)
      rw [hseed] at this; cases this
  refine ⟨hst, ?_⟩
  rw [wantsFlush_setup hst]
  have hk3 := (hkd g hst).2.2.1
  have hcfs : g.clientFinished.seed.isSome = true := by
    rw [hl.cf]
    cases hh : cfHashes ops with
    | nil => exact absurd hh hcf
    | cons a l => rfl
  have hnd : g.clientFinished.isDone = false := by
    cases hd : g.clientFinished.isDone with
    | false => rfl
    | true =>
      exfalso
      have hci := hi.fns.cf
      revert hk3 hd hci
      generalize g.clientFinished = cf
      intro hk3 hd hci
      cases cf with
      | normal f => cases hk3
      | reduced r =>
        obtain ⟨as, ps, hr⟩ := hci
        have hst := hr.st
        cases hs : r.state with
        | done =>
          rw [hs] at hst
          obtain ⟨k, _, _, hkk, _⟩ := hst
          rw [hC.keys.2.1] at hkk
          have hkk := C.ms.val.mono _ _ k hi.le hkk
          obtain ⟨hok, hkey, _, hlen, _, _, hval⟩ := hC.cm c hc
          rw [hval] at hkk
          obtain ⟨v, hv, _⟩ := Option.map_eq_some_iff.mp hkk
          obtain ⟨_, sl, _, hsl, _⟩ := fn_value hok hi.le hfi (by omega) v hv
          rw [hseed] at hsl; cases hsl
        | _ => simp [InnerPrf.isDone, ReducedFn.isDone, hs] at hd
  simp [PrfFns.wantsFlush, wants_of hcfs hnd]

/-- C44: in the reduced mode a handshake hash that is set before the values that the master secret needs makes the flush loop run
for ever.  A follower whose leader sends the client finished message before the server hello does not return. -/
theorem C44_reduced_loop_forever {S : Sha} {cfg : PrfConfig} {secret : VecRef} {ops : List PrfOp} {prf : Prf} {vm : Vm}
    {out : PrfOutput} (h : PrfRun S cfg secret ops prf vm out) (hnet : cfg.network = .reduced) (hms : cfg.ms ≠ .direct)
    (hcf : cfHashes ops ≠ []) (hnr : ¬ MasterReady cfg.ms ops) (n : Nat) : flushPrf S n prf vm = none := by
  obtain ⟨C, g, hC, rfl, hi, hl, ho, hL, hkd⟩ := prfRun_inv h
  have hnone : msSeed ops cfg.ms = none := by
    revert hnr hms
    cases cfg.ms with
    | standard => intro _ hnr; simp [MasterReady] at hnr; simp [msSeed, hnr]
    | extended => intro _ hnr; simp [MasterReady] at hnr; simp [msSeed, hnr]
    | direct => intro h; exact absurd rfl h
  clear ho h
  rw [hnet] at hkd
  induction n generalizing prf vm g with
  | zero =>
    obtain ⟨_, hw⟩ := reduced_waits hC hms hnone hcf hi hl hkd
    simp [flushPrf, hw]
  | succ n ih =>
    obtain ⟨hs, hw⟩ := reduced_waits hC hms hnone hcf hi hl hkd
    have fits : ∀ (c : FnCtx) (f : InnerPrf), f.kind = .reduced → f.SeedFits c := by
      intro c f hf
      cases f with
      | normal f => cases hf
      | reduced f => trivial
    obtain ⟨k1, k2, k3, k4⟩ := hkd g hs
    obtain ⟨g1, vm1, hfl⟩ := (fns_flush hC hi.le hi.fns).2
      ⟨fun c f _ hf => fits c f (k1 f hf), fits _ _ k2, fits _ _ k3, fits _ _ k4⟩
    have hfl' := prf_flush_setup S prf vm g hs
    rw [hfl] at hfl'
    obtain ⟨g', h1, h2, h3, h4, h5, h6⟩ := prf_flush_inv hC hi hfl'
    rw [flushPrf, if_pos hw, hfl']
    exact ih g' (h1.execute hC) (h2.link hl h4 h5) (fun g'' hg'' => kinds_flush hkd hfl' g'' hg'')

/-- C44: in the normal mode the session hash must have 32 bytes: the flush after another one fails.  The reduced mode takes session
hashes of any length, see `C44_session_keys`, which does not restrict it. -/
theorem C44_session_hash_length {S : Sha} {cfg : PrfConfig} {secret : VecRef} {ops : List PrfOp} {prf : Prf} {vm : Vm}
    {out : PrfOutput} (h : PrfRun S cfg secret ops prf vm out) (hnet : cfg.network = .normal) (hms : cfg.ms = .extended)
    (hno : sessionHashes ops = []) (hash : Bytes) (hlen : hash.length ≠ 32) (prf' : Prf)
    (hset : prf.setSessionHash hash = .ok prf') : prf'.flush S vm = .err .vm := by
  obtain ⟨C, g, hC, rfl, hi, hl, ho, hL, hkd⟩ := prfRun_inv h
  rcases hi.state with hs | ⟨hs, _⟩
  · simp only at hs
    rw [hms] at hl hL
    simp only [Prf.setSessionHash, hs, hl.config] at hset
    cases hg : g.masterSecret with
    | none => rw [hg] at hset; cases hset
    | some f =>
      rw [hg] at hset
      cases hset
      have h1 := hi.fns.ms
      cases hc : C.cm with
      | none => rw [hc, hg] at h1; exact h1.elim
      | some c =>
      rw [hc, hg] at h1
      have hk := (hkd g hs).1 f hg
      rw [hnet] at hk
      have hse : f.seed = none := by rw [hl.ms f hg]; simp [msSeed, hno]
      have hla : f.label = emsLabel := by have := hl.labels.ms; rw [hg] at this; exact this
      have hinv := FnInv.setSeed h1 hse hash
      cases f with
      | reduced f => cases hk
      | normal f =>
        have hfin : f.finished = false := by
          cases hd : f.finished with
          | false => rfl
          | true =>
            have h1 : FnInv S c vm (.normal f) := h1
            have := seed_of_done h1 hd
            rw [hse] at this; cases this
        obtain ⟨id, hn⟩ := hinv
        have herr := (normal_flush (hC.cm c hc).1 hn (f.label ++ hash) rfl hfin).1 (by
          rw [hL.cm c hc, show f.label = emsLabel from hla]
          simp [msSeedLen, show emsLabel.length = 22 by decide +kernel]; omega)
        rw [prf_flush_setup S _ vm _ rfl]
        unfold PrfFns.flush
        have e1 : flushOption S vm (some ((InnerPrf.normal f).setStartSeed hash)) = .err .vm := by
          show (InnerPrf.flushIfWanted S vm (.normal (f.setStartSeed hash)) >>= _) = _
          have : InnerPrf.flushIfWanted S vm (.normal (f.setStartSeed hash)) = .err .vm := by
            unfold InnerPrf.flushIfWanted
            rw [if_pos (by simp [InnerPrf.wantsFlush, NormalFn.wantsFlush, NormalFn.setStartSeed, hfin])]
            show (NormalFn.flush (f.setStartSeed hash) vm >>= _) = _
            rw [show NormalFn.flush (f.setStartSeed hash) vm = .err .vm from herr]
            rfl
          rw [this]; rfl
        rw [e1]; rfl
  · simp only at hs
    simp only [Prf.setSessionHash, hs] at hset; cases hset

/-- C44: setting the server random before the client random panics. -/
theorem C44_server_random_first {S : Sha} {cfg : PrfConfig} {secret : VecRef} {ops : List PrfOp} {prf : Prf} {vm : Vm}
    {out : PrfOutput} (h : PrfRun S cfg secret ops prf vm out) (hno : clientRandoms ops = []) (r : Bytes) :
    prf.setServerRandom r = .panic ∨ prf.setServerRandom r = .err .state := by
  obtain ⟨C, g, hC, rfl, hi, hl, ho, hL, hkd⟩ := prfRun_inv h
  have hcr : prf.clientRandom = none := by rw [hl.cr, hno]; rfl
  rcases hi.state with hs | ⟨hs, _⟩
  · left; simp only at hs; simp only [Prf.setServerRandom, hs, hcr]
  · right; simp only at hs; simp only [Prf.setServerRandom, hs]

theorem softLoop_eq (S : Sha) (secret label seed : Bytes) (ns : List Nat) (j : Nat) :
    softLoop (S.hmac secret) label seed ns (S.aSeq secret (label ++ seed) j) =
      (ns.zipIdx j).flatMap fun p => (S.hmac secret (S.aSeq secret (label ++ seed) (p.2 + 1) ++ (label ++ seed))).take p.1 := by
  induction ns generalizing j with
  | nil => rfl
  | cons n ns ih =>
    have := ih (j + 1)
    simp only [softLoop, List.zipIdx_cons, List.flatMap_cons]
    rw [show S.hmac secret (S.aSeq secret (label ++ seed) j) = S.aSeq secret (label ++ seed) (j + 1) from rfl, this,
      List.append_assoc]

theorem full_chunks (F : Nat → Bytes) (hF : ∀ i, (F i).length = 32) (m : Nat) :
    ((List.replicate m 32).zipIdx 0).flatMap (fun p => (F p.2).take p.1) = (List.range m).flatMap F := by
  have : (List.replicate m 32).zipIdx 0 = (List.range m).map fun i => (32, i) := by
    apply List.ext_getElem?
    intro i
    by_cases hi : i < m <;> simp [hi]
  rw [this, List.flatMap_map]
  apply List.flatMap_congr
  intro i _
  exact List.take_of_length_le (by simp [hF])

theorem hmac_length (S : Sha) (k m : Bytes) : (S.hmac k m).length = 32 := S.sha256_length _

/-- C44: the PRF of the TLS client is that of RFC 5246, for every length. -/
theorem C44_software_prf (S : Sha) (secret label seed : Bytes) (n : Nat) :
    softPrf S.hmac n secret label seed = S.prf secret label seed n := by
  have h0 : label ++ seed = S.aSeq secret (label ++ seed) 0 := rfl
  unfold softPrf
  conv => lhs; rw [h0]
  rw [softLoop_eq]
  generalize hF : (fun i => S.hmac secret (S.aSeq secret (label ++ seed) (i + 1) ++ (label ++ seed))) = F
  have hl : ∀ i, (F i).length = 32 := by intro i; rw [← hF]; exact hmac_length _ _ _
  have e1 : ((chunkLengths n).zipIdx 0).flatMap (fun p => (S.hmac secret (S.aSeq secret (label ++ seed) (p.2 + 1) ++
      (label ++ seed))).take p.1) = ((chunkLengths n).zipIdx 0).flatMap (fun p => (F p.2).take p.1) := by rw [← hF]
  have e2 : S.prf secret label seed n = ((List.range ((n + 31) / 32)).flatMap F).take n := by rw [← hF]; rfl
  rw [e1, e2]
  have hlen : ∀ m, ((List.range m).flatMap F).length = 32 * m := by
    intro m
    induction m with
    | zero => rfl
    | succ m ih => rw [List.range_succ, List.flatMap_append, List.length_append, ih]; simp [hl]; omega
  unfold chunkLengths
  by_cases hm : n % 32 = 0
  · rw [if_pos hm, List.append_nil, full_chunks F hl, show (n + 31) / 32 = n / 32 by omega,
      List.take_of_length_le (by rw [hlen]; omega)]
  · rw [if_neg hm, List.zipIdx_append, List.flatMap_append, full_chunks F hl, show (n + 31) / 32 = n / 32 + 1 by omega,
      List.range_succ, List.flatMap_append, List.take_append, List.take_of_length_le (l := (List.range (n / 32)).flatMap F)
      (by rw [hlen]; omega), hlen]
    simp only [List.length_replicate, List.zipIdx_singleton, List.flatMap_singleton]
    rw [show n - 32 * (n / 32) = n % 32 by omega]
    simp

/-! ## Concrete cases -/

/-- A small function in place of the compression function. -/
def toySha : Sha where
  iv := Vector.ofFn fun i => (i.val * 77 + 5).toUInt32
  compress st b := Vector.ofFn fun i =>
    st[i] * 31 + (b.zipIdx.foldl (fun acc x => acc * 3 + x.1.toUInt32 + (x.2 * i.val).toUInt32) 7)

/-- A machine on which an input of 32 bytes has been allocated. -/
def toyVm : Vm := ⟨1, fun _ => none, fun _ => none⟩

def toySecret : VecRef := slotRef 0

/-- A handshake in the given order. -/
def toyOps : List PrfOp :=
  [.clientRandom (List.replicate 32 1), .other 0 (List.replicate 32 9), .flush, .execute, .serverRandom (List.replicate 32 2), .flush,
    .execute, .cfHash (List.replicate 32 3)]

/-- Allocates, runs a history, and looks at the result. -/
def toyRun (cfg : PrfConfig) (ops : List PrfOp) (check : Prf × Vm → PrfOutput → Bool) : Bool :=
  match allocPrf toySha cfg toyVm toySecret with
  | .ok (p0, vm1, out) =>
    match runOps toySha ops (p0, vm1) with
    | .ok r => check r out
    | _ => false
  | _ => false

theorem toyRun_spec {cfg : PrfConfig} {ops : List PrfOp} {check : Prf × Vm → PrfOutput → Bool}
    (h : toyRun cfg ops check = true) (ho : SetOnce ops) (ha : ∀ id v, PrfOp.other id v ∈ ops → id < 1) :
    ∃ prf vm out, PrfRun toySha cfg toySecret ops prf vm out ∧ check (prf, vm) out = true := by
  unfold toyRun at h
  split at h
  · rename_i p0 vm1 out hal
    split at h
    · rename_i r hr
      refine ⟨r.1, r.2, out, ⟨⟨toyVm, p0, vm1, ⟨fun _ _ => rfl, Env.Le.refl _⟩, hal, ?_, hr⟩, ?_, ?_, ho⟩, h⟩
      · intro id v hm; exact Or.inl (ha id v hm)
      · exact Ref.input_sized 0 32
      · decide
    · cases h
  · cases h

theorem toyOps_once : SetOnce toyOps := ⟨by decide, by decide, by decide, by decide, by decide⟩

theorem toyOps_apart : ∀ id v, PrfOp.other id v ∈ toyOps → id < 1 := by
  intro id v h
  simp only [toyOps, List.mem_cons, PrfOp.other.injEq, reduceCtorEq, false_or, List.not_mem_nil, or_false] at h
  omega

/-- Everything that the history sets is decoded after the loop, with the values of the specification. -/
def toyCheck (master : Bytes) (s : Prf × Vm) (out : PrfOutput) : Bool :=
  match flushPrf toySha 11 s.1 s.2 with
  | some (.ok (_, vm)) =>
    let b := toySha.keyBlock master (List.replicate 32 1) (List.replicate 32 2)
    decide (vm.recv out.keys.clientWriteKey.val = some (b.take 16)) &&
      decide (vm.recv out.keys.serverIv.val = some ((b.drop 36).take 4)) &&
      decide (vm.recv out.cfVd.val = some (toySha.clientVerifyData master (List.replicate 32 3))) &&
      decide (vm.recv out.sfVd.val = none)
  | _ => false

/-- A handshake in the reduced mode: the hypotheses of the theorems on decoded values and of `C44_flush_loop` hold, and
values are decoded. -/
example : ∃ prf vm out, PrfRun toySha ⟨.reduced, .standard⟩ toySecret toyOps prf vm out ∧
    toyCheck (toySha.masterSecret (List.replicate 32 9) (List.replicate 32 1) (List.replicate 32 2)) (prf, vm) out = true :=
  toyRun_spec (by decide +kernel) toyOps_once toyOps_apart

/-- The same in the normal mode. -/
example : ∃ prf vm out, PrfRun toySha ⟨.normal, .standard⟩ toySecret toyOps prf vm out ∧
    toyCheck (toySha.masterSecret (List.replicate 32 9) (List.replicate 32 1) (List.replicate 32 2)) (prf, vm) out = true :=
  toyRun_spec (by decide +kernel) toyOps_once toyOps_apart

/-- A given master secret. -/
example : ∃ prf vm out, PrfRun toySha ⟨.reduced, .direct⟩ toySecret toyOps prf vm out ∧
    toyCheck (List.replicate 32 9) (prf, vm) out = true :=
  toyRun_spec (by decide +kernel) toyOps_once toyOps_apart

example : Sizes toyOps ∧ MasterReady .standard toyOps := by
  refine ⟨?_, ?_⟩
  · show ∀ r ∈ [List.replicate 32 (1 : Byte), List.replicate 32 2, List.replicate 32 3], r.length = 32
    decide
  · show [List.replicate 32 (2 : Byte)] ≠ []
    decide

/-- The client finished message before the server hello: the history of `C44_reduced_loop_forever`. -/
example : ∃ prf vm out, PrfRun toySha ⟨.reduced, .standard⟩ toySecret [.cfHash (List.replicate 32 3)] prf vm out ∧
    (flushPrf toySha 40 prf vm).isNone = true :=
  toyRun_spec (check := fun s _ => (flushPrf toySha 40 s.1 s.2).isNone) (by decide +kernel)
    ⟨by decide, by decide, by decide, by decide, by decide⟩
    (by intro id v h; simp at h)

/-- A session hash of the wrong length in the normal mode. -/
example : ∃ prf vm out, PrfRun toySha ⟨.normal, .extended⟩ toySecret [] prf vm out ∧
    (match prf.setSessionHash [1, 2, 3] with | .ok p => (match p.flush toySha vm with | .err e => e == .vm | _ => false) | _ => false)
      = true :=
  toyRun_spec (check := fun s _ => match s.1.setSessionHash [1, 2, 3] with
    | .ok p => (match p.flush toySha s.2 with | .err e => e == .vm | _ => false)
    | _ => false) (by decide +kernel) ⟨by decide, by decide, by decide, by decide, by decide⟩ (by intro id v h; cases h)

/-- The server random comes first. -/
example : ∃ prf vm out, PrfRun toySha ⟨.normal, .standard⟩ toySecret [.flush] prf vm out ∧
    (match prf.setServerRandom [] with | .panic => true | _ => false) = true :=
  toyRun_spec (check := fun s _ => match s.1.setServerRandom [] with | .panic => true | _ => false) (by decide +kernel)
    ⟨by decide, by decide, by decide, by decide, by decide⟩ (by intro id v h; simp at h)

/-- The PRF of the client, for a length that is not a multiple of the block length. -/
example : (softPrf toySha.hmac 40 [1, 2] [3] [4]).length = 40 := by decide +kernel

end Tlsn
