import Verif.Proxy.Machine
import Verif.TlsTranscript.Props
import Verif.Tags.Props

/-! # The computation of the session keys and the checks, in closed form -/

namespace Tlsn.Proxy

open Hmac Mpc

/-- An input of the machine. -/
def inputRef (id len : Nat) : VecRef := ⟨some id, len, Ref.input id len⟩

/-- An allocated check whose three inputs start at `n`. -/
def checkAt (aes : AesFn) (n : Nat) (key iv expected : VecRef) : VdCheck :=
  .alloc (inputRef (n + 1) 8) (inputRef (n + 2) 4) (inputRef n 16) expected.val
    (Ref.map2 xorBytes (Ref.input n 16) (ctrBlock aes key.val iv.val (Ref.input (n + 1) 8) (Ref.input (n + 2) 4)))

/-- The references of a party. -/
def refsOf (aes : AesFn) (out : PrfOutput) : References :=
  ⟨msRef, out.keys.clientWriteKey, out.keys.clientIv, out.keys.serverWriteKey, out.keys.serverIv,
    Ref.map (fun k => (aes k (List.replicate 16 0)).toList) out.keys.serverWriteKey.val, out.cfVd⟩

theorem alloc_ok (S : Sha) (aes : AesFn) :
    ∃ prf0 vm1 out, allocPrf S prfConfig vm0 msRef = .ok (prf0, vm1, out) ∧
      Party.alloc S aes = .ok ⟨{ vm1 with next := vm1.next + 6 }, prf0, refsOf aes out,
        checkAt aes vm1.next out.keys.clientWriteKey out.keys.clientIv out.cfVd,
        checkAt aes (vm1.next + 3) out.keys.serverWriteKey out.keys.serverIv out.sfVd⟩ := by
  obtain ⟨prf0, vm1, out, h⟩ := C44_alloc S prfConfig vm0 vm0_fresh msRef (Ref.input_sized 0 48) (by decide)
  refine ⟨prf0, vm1, out, h, ?_⟩
  unfold Party.alloc
  simp only
  rw [show (emptyVm.alloc 48).1 = vm0 from rfl, show (emptyVm.alloc 48).2 = msRef from rfl,
    show (⟨.normal, .direct⟩ : PrfConfig) = prfConfig from rfl, h]
  rfl

/-- Assigning an input that has no value. -/
theorem assign_fresh {vm : Vm} {id len : Nat} {v : Bytes} (hv : v.length = len) (hn : vm.committed id = none) :
    vm.assign (inputRef id len) v = .ok { vm with committed := fun j => if j = id then some v else vm.committed j } := by
  simp [Vm.assign, inputRef, hv, hn]

/-- Assigning a check. -/
theorem assign_check (aes : AesFn) {n : Nat} {key iv expected : VecRef} {vm : Vm} (hfree : ∀ id, n ≤ id → id < n + 3 → vm.committed id = none)
    (nonce ciphertext : Bytes) (hn : nonce.length = 8) :
    (ciphertext.length ≠ 16 → (checkAt aes n key iv expected).assign vm nonce ciphertext = .err .ciphertextLength) ∧
    (ciphertext.length = 16 → ∃ vm', (checkAt aes n key iv expected).assign vm nonce ciphertext =
        .ok (.assigned expected.val ((Ref.map2 xorBytes (Ref.input n 16) (ctrBlock aes key.val iv.val (Ref.input (n + 1) 8)
          (Ref.input (n + 2) 4))).map (·.drop 4)), vm') ∧
      vm.committed.Le vm'.committed ∧ vm'.executed = vm.executed ∧ vm'.committed n = some ciphertext ∧
      vm'.committed (n + 1) = some nonce ∧ vm'.committed (n + 2) = some (beBytes 4 2) ∧
      ∀ id, (id < n ∨ n + 3 ≤ id) → vm'.committed id = vm.committed id) := by
  constructor
  · intro h
    simp [checkAt, VdCheck.assign, hn, h]
  · intro h
    have e1 := assign_fresh (vm := vm) hn (hfree (n + 1) (by omega) (by omega))
    generalize hv1 : ({ vm with committed := fun j => if j = n + 1 then some nonce else vm.committed j } : Vm) = va at e1
    have c1 : ∀ j, va.committed j = if j = n + 1 then some nonce else vm.committed j := by intro j; rw [← hv1]
    have e2 := assign_fresh (vm := va) (id := n + 2) (len := 4) (v := beBytes 4 2) (by simp)
      (by rw [c1, if_neg (by omega)]; exact hfree _ (by omega) (by omega))
    generalize hv2 : ({ va with committed := fun j => if j = n + 2 then some (beBytes 4 2) else va.committed j } : Vm) = vb at e2
    have c2 : ∀ j, vb.committed j = if j = n + 2 then some (beBytes 4 2) else va.committed j := by intro j; rw [← hv2]
    have e3 := assign_fresh (vm := vb) (id := n) h
      (by rw [c2, if_neg (by omega), c1, if_neg (by omega)]; exact hfree _ (by omega) (by omega))
    generalize hv3 : ({ vb with committed := fun j => if j = n then some ciphertext else vb.committed j } : Vm) = vc at e3
    have c3 : ∀ j, vc.committed j = if j = n then some ciphertext else vb.committed j := by intro j; rw [← hv3]
    refine ⟨vc, ?_, ?_, by rw [← hv3, ← hv2, ← hv1], by rw [c3, if_pos rfl], ?_, ?_, ?_⟩
    · simp only [checkAt, VdCheck.assign, hn, h, e1, e2, e3, onMachine, Outcome.bind_ok]
      simp
    · intro i v hi
      have hr : ¬ (n ≤ i ∧ i < n + 3) := fun hr => by rw [hfree i hr.1 hr.2] at hi; cases hi
      rw [c3, if_neg (by omega), c2, if_neg (by omega), c1, if_neg (by omega)]
      exact hi
    · rw [c3, if_neg (by omega), c2, if_neg (by omega), c1, if_pos rfl]
    · rw [c3, if_neg (by omega), c2, if_pos rfl]
    · intro i hi
      rw [c3, if_neg (by omega), c2, if_neg (by omega), c1, if_neg (by omega)]

/-- The value of a check. -/
theorem check_value (aes : AesFn) {n : Nat} {key iv expected : VecRef} {vm : Vm} {k i vd nonce ciphertext : Bytes}
    (hk : key.val.run vm.committed = some k) (hi : iv.val.run vm.committed = some i)
    (hv : expected.val.run vm.committed = some vd) (h0 : vm.committed n = some ciphertext) (h1 : vm.committed (n + 1) = some nonce)
    (h2 : vm.committed (n + 2) = some (beBytes 4 2)) (hn : nonce.length = 8) (hc : ciphertext.length = 16) :
    (VdCheck.assigned expected.val ((Ref.map2 xorBytes (Ref.input n 16) (ctrBlock aes key.val iv.val (Ref.input (n + 1) 8)
      (Ref.input (n + 2) 4))).map (·.drop 4))).check vm.execute =
      if vd = (xorBytes ciphertext (aes k (i ++ (nonce ++ beBytes 4 2))).toList).drop 4 then .ok () else .err .verifyData := by
  have e1 : vm.execute.recv expected.val = some vd := hv
  have e2 : vm.execute.recv ((Ref.map2 xorBytes (Ref.input n 16) (ctrBlock aes key.val iv.val (Ref.input (n + 1) 8)
      (Ref.input (n + 2) 4))).map (·.drop 4)) =
      some ((xorBytes ciphertext (aes k (i ++ (nonce ++ beBytes 4 2))).toList).drop 4) := by
    have a0 : (Ref.input n 16).run vm.committed = some ciphertext := by
      show (vm.committed n).filter _ = _
      rw [h0]; simp [hc]
    have a1 : (Ref.input (n + 1) 8).run vm.committed = some nonce := by
      show (vm.committed (n + 1)).filter _ = _
      rw [h1]; simp [hn]
    have a2 : (Ref.input (n + 2) 4).run vm.committed = some (beBytes 4 2) := by
      show (vm.committed (n + 2)).filter _ = _
      rw [h2]; simp
    simp only [Vm.recv, Vm.execute, Ref.map, Ref.map2, ctrBlock, a0, a1, a2, hk, hi, Option.bind_some, Option.map_some]
  unfold VdCheck.check
  simp only [e1, e2]
  by_cases hx : vd = (xorBytes ciphertext (aes k (i ++ (nonce ++ beBytes 4 2))).toList).drop 4
  · rw [if_pos hx, if_neg (by simpa using hx)]
  · rw [if_neg hx, if_pos hx]

/-- The keys of a session. -/
structure SecretKeys where
  clientKey : Bytes
  clientIv : Bytes
  serverKey : Bytes
  serverIv : Bytes

/-- The keys that RFC 5246 derives from a master secret and the two randoms. -/
def keysOf (S : Sha) (ms clientRandom serverRandom : Bytes) : SecretKeys :=
  let b := S.keyBlock ms clientRandom serverRandom
  ⟨b.take 16, (b.drop 32).take 4, (b.drop 16).take 16, (b.drop 36).take 4⟩

/-- The verify data in a finished record, if the record is decrypted and the header is cut off. -/
def finishedBytes (aes : AesFn) (key iv : Bytes) (r : Record) : Bytes :=
  (xorBytes r.ciphertext (aes key (iv ++ (r.nonce ++ beBytes 4 2))).toList).drop 4

theorem compute_spec (S : Sha) (env : TtEnv) (aes : AesFn) (t : TlsTranscript) (ms cfHash : Bytes) (cf sf : Record)
    (hms : ms.length = 48) (hcf : t.cfHash = some cfHash) (hcfl : cfHash.length = 32)
    (sfHash : Bytes) (hsf : t.sfHashWith env (S.clientVerifyData ms cfHash) = some (some sfHash)) (hsfl : sfHash.length = 32)
    (hc : t.clientFinished = some cf) (hs : t.serverFinished = some sf) (hcn : cf.nonce.length = 8) (hsn : sf.nonce.length = 8) :
    ∃ p, Party.alloc S aes = .ok p ∧
      ((cf.ciphertext.length ≠ 16 ∨ sf.ciphertext.length ≠ 16) → p.compute S env t ms = .err .ciphertextLength) ∧
      (cf.ciphertext.length = 16 → sf.ciphertext.length = 16 → ∃ p', p.compute S env t ms = .ok p' ∧
        let k := keysOf S ms t.certificateBinding.clientRandom.toList t.certificateBinding.serverRandom.toList
        (∀ fill, keyMemory fill p'.vm.execute p'.refs = some ⟨k.clientKey ++ (k.clientIv ++ (k.serverKey ++ (k.serverIv ++
          (aes k.serverKey (List.replicate 16 0)).toList))), fill, [], []⟩) ∧
        p'.cfCheck.check p'.vm.execute =
          (if S.clientVerifyData ms cfHash = finishedBytes aes k.clientKey k.clientIv cf then .ok () else .err .verifyData) ∧
        p'.sfCheck.check p'.vm.execute =
          (if S.serverVerifyData ms sfHash = finishedBytes aes k.serverKey k.serverIv sf then .ok () else .err .verifyData)) := by
  obtain ⟨prf0, vm1, out, halloc, hp⟩ := alloc_ok S aes
  refine ⟨_, hp, ?_⟩
  generalize hcr : t.certificateBinding.clientRandom.toList = cr
  generalize hsr : t.certificateBinding.serverRandom.toList = sr
  have hcrl : cr.length = 32 := by rw [← hcr]; simp
  have hsrl : sr.length = 32 := by rw [← hsr]; simp
  -- allocation of the checks
  generalize hvm2 : ({ vm1 with next := vm1.next + 6 } : Vm) = vm2
  have a0 : At S prf0 vm1 out [.alloc 16, .alloc 8, .alloc 4, .alloc 16, .alloc 8, .alloc 4] prf0 vm2 := by
    refine ⟨halloc, ?_, ⟨by decide, by decide, by decide, by decide, by decide⟩, ?_⟩
    · rw [← hvm2]; rfl
    · intro id v h; simp at h
  generalize hops : [PrfOp.alloc 16, .alloc 8, .alloc 4, .alloc 16, .alloc 8, .alloc 4] = ops0 at a0
  have z0 : Quiet ops0 ∧ ∀ id v, PrfOp.other id v ∉ ops0 := by rw [← hops]; exact ⟨⟨rfl, rfl, rfl, rfl, rfl⟩, by simp⟩
  -- the master secret
  obtain ⟨-, -, -, -, -, -, -, free0⟩ := a0.ctx
  have f0 : vm2.committed 0 = none := free0 0 (.inl (by decide)) (z0.2 0)
  have hlo : ∀ id, id = 0 → id < vm0.next := by rintro _ rfl; decide
  have e1 : vm2.assign msRef ms = .ok { vm2 with committed := fun j => if j = 0 then some ms else vm2.committed j } :=
    assign_fresh hms f0
  generalize hvm3 : ({ vm2 with committed := fun j => if j = 0 then some ms else vm2.committed j } : Vm) = vm3 at e1
  have m3 : vm3.committed 0 = some ms := by rw [← hvm3]; simp
  -- the randoms
  obtain ⟨g, st, cfg, -, sd, cd⟩ := a0.open z0.1.2.2.2.2
  have e2 : ∃ prf2, (prf0.setClientRandom cr).setServerRandom sr = .ok prf2 ∧
      prf2.state = .setup { g with keyExpansion := g.keyExpansion.setStartSeed (sr ++ cr) } := by
    refine ⟨{ prf0.setClientRandom cr with
      state := .setup { g with keyExpansion := g.keyExpansion.setStartSeed (sr ++ cr) } }, ?_, rfl⟩
    simp only [Prf.setServerRandom, Prf.setClientRandom, st, cfg]
  obtain ⟨prf2, e2, st2⟩ := e2
  have e3 : ∃ prf3, prf2.setCfHash cfHash = .ok prf3 ∧ prf3.wantsFlush = true := by
    refine ⟨_, by simp only [Prf.setCfHash, st2]; rfl, ?_⟩
    simp [Prf.wantsFlush, wants_setSeed (cd z0.1.2.2.2.1) cfHash]
  obtain ⟨prf3, e3, w3⟩ := e3
  have a3 : At S prf0 vm1 out (ops0 ++ [.other 0 ms, .clientRandom cr, .serverRandom sr, .cfHash cfHash]) prf3 vm3 := by
    refine a0.extend ?_ ?_ ?_
    · have e1' : vm2.assign ⟨some 0, ms.length, Ref.input 0 ms.length⟩ ms = .ok vm3 := by rw [hms]; exact e1
      simp only [runOps, PrfOp.step, e1', Outcome.bind_ok, e2, e3]
    · rw [← hops]
      exact ⟨Nat.le_refl 1, Nat.le_refl 1, Nat.zero_le 1, Nat.le_refl 1, Nat.zero_le 1⟩
    · intro id v h
      simp at h
      exact .inl (hlo id h.1)
  generalize hops3 : ops0 ++ [.other 0 ms, .clientRandom cr, .serverRandom sr, .cfHash cfHash] = ops3 at a3
  have l3 : clientRandoms ops3 = [cr] ∧ serverRandoms ops3 = [sr] ∧ sessionHashes ops3 = [] ∧ cfHashes ops3 = [cfHash] ∧
      sfHashes ops3 = [] ∧ ∀ id v, PrfOp.other id v ∈ ops3 → id = 0 := by
    rw [← hops3, ← hops]
    exact ⟨rfl, rfl, rfl, rfl, rfl, by simp⟩
  have z3 : Sizes ops3 := by
    intro r hr
    rw [l3.1, l3.2.1, l3.2.2.1, l3.2.2.2.1, l3.2.2.2.2.1] at hr
    simp at hr
    rcases hr with rfl | rfl | rfl <;> assumption
  obtain ⟨prf4, vm4, q, f4, q1, q2, a4, x4, g4, d4, v4, -⟩ := a3.flush z3 m3 hms w3 l3.1 l3.2.1
  have hcv := v4 cfHash l3.2.2.2.1
  -- the hash for the server
  have l4 := set_quiet ops3 q1
  rw [l3.1, l3.2.1, l3.2.2.1, l3.2.2.2.1, l3.2.2.2.2.1] at l4
  obtain ⟨g', st4, -, -, sd4, -⟩ := a4.open l4.2.2.2.2
  have e5 : ∃ prf5, prf4.setSfHash sfHash = .ok prf5 ∧ prf5.wantsFlush = true := by
    refine ⟨_, by simp only [Prf.setSfHash, st4]; rfl, ?_⟩
    simp [Prf.wantsFlush, wants_setSeed sd4 sfHash]
  obtain ⟨prf5, e5, w5⟩ := e5
  have a5 : At S prf0 vm1 out (ops3 ++ q ++ [.sfHash sfHash]) prf5 vm4 := by
    refine a4.extend (by simp only [runOps, PrfOp.step, e5, Outcome.bind_ok]) ?_ (by intro id v h; simp at h)
    exact once_nil a4.once (by simp) (by simp) (by simp) (by simp) (fun _ _ => l4.2.2.2.2) ⟨rfl, rfl, rfl, rfl, rfl⟩
  have l5 := set_append (ops3 ++ q) (.sfHash sfHash) (q := []) ⟨rfl, rfl, rfl, rfl, rfl⟩
  rw [l4.1, l4.2.1, l4.2.2.1, l4.2.2.2.1, l4.2.2.2.2] at l5
  have z5 : Sizes (ops3 ++ q ++ [.sfHash sfHash]) := by
    intro r hr
    rw [l5.1, l5.2.1, l5.2.2.1, l5.2.2.2.1, l5.2.2.2.2] at hr
    simp [clientRandoms, serverRandoms, sessionHashes, cfHashes, sfHashes] at hr
    rcases hr with rfl | rfl | rfl | rfl <;> assumption
  obtain ⟨prf6, vm6, q', f6, q1', q2', a6, x6, g6, d6, v6, u6⟩ :=
    a5.flush z5 (g4 0 ms m3) hms w5 l5.1 l5.2.1
  have hcv6 := v6 cfHash l5.2.2.2.1
  have hsv6 := u6 sfHash l5.2.2.2.2
  -- the inputs of the checks
  obtain ⟨-, -, -, -, -, -, -, free6⟩ := a6.ctx
  have hfree : ∀ id, vm1.next ≤ id → vm6.committed id = none := by
    intro id hid
    refine free6 id (.inr hid) (fun v hm => ?_)
    have h0 : id = 0 := by
      simp only [List.append_assoc, List.mem_append, List.mem_cons, List.not_mem_nil, or_false, reduceCtorEq, false_or] at hm
      rcases hm with hm | hm | hm
      · exact l3.2.2.2.2.2 id v hm
      · exact absurd hm (q2 id v)
      · exact absurd hm (q2' id v)
    have : vm0.next ≤ vm1.next := by
      obtain ⟨C, -, hC, c1, c2, -⟩ := a6.ctx
      have := hC.order
      omega
    have : 0 < vm0.next := by decide
    omega
  obtain ⟨b1, b2⟩ := assign_check aes (n := vm1.next) (key := out.keys.clientWriteKey) (iv := out.keys.clientIv)
    (expected := out.cfVd) (vm := vm6) (fun id h _ => hfree id h) cf.nonce cf.ciphertext hcn
  -- the computation up to the checks
  have hcomp : Party.compute S env ⟨vm2, prf0, refsOf aes out,
        checkAt aes vm1.next out.keys.clientWriteKey out.keys.clientIv out.cfVd,
        checkAt aes (vm1.next + 3) out.keys.serverWriteKey out.keys.serverIv out.sfVd⟩ t ms =
      ((checkAt aes vm1.next out.keys.clientWriteKey out.keys.clientIv out.cfVd).assign vm6 cf.nonce cf.ciphertext >>= fun r =>
        (checkAt aes (vm1.next + 3) out.keys.serverWriteKey out.keys.serverIv out.sfVd).assign r.2 sf.nonce sf.ciphertext >>=
          fun r' => .ok ⟨r'.2, prf6, refsOf aes out, r.1, r'.1⟩) := by
    unfold Party.compute
    rw [hcf, hcr, hsr]
    simp only [refsOf, e1, e2, e3, onMachine, Outcome.bind_ok, flushLoop, f4]
    have hrecv : vm4.recv out.cfVd.val = some (S.clientVerifyData ms cfHash) := by
      show out.cfVd.val.run vm4.executed = _
      rw [x4]; exact hcv
    simp only [hrecv, hsf, e5, Outcome.bind_ok, f6, hc, hs]
  rw [hcomp]
  constructor
  · intro hor
    by_cases h16 : cf.ciphertext.length = 16
    · obtain ⟨vm7, e7, -, -, -, -, -, o7⟩ := b2 h16
      obtain ⟨b3, -⟩ := assign_check aes (n := vm1.next + 3) (key := out.keys.serverWriteKey) (iv := out.keys.serverIv)
        (expected := out.sfVd) (vm := vm7) (fun id h h' => by rw [o7 id (.inr (by omega))]; exact hfree id (by omega)) sf.nonce
        sf.ciphertext hsn
      rw [e7]
      simp only [Outcome.bind_ok]
      rw [b3 (by rcases hor with h | h; exact absurd h16 h; exact h)]
      rfl
    · rw [b1 h16]; rfl
  · intro h16 h16'
    obtain ⟨vm7, e7, le7, -, n0, n1, n2, o7⟩ := b2 h16
    obtain ⟨-, b4⟩ := assign_check aes (n := vm1.next + 3) (key := out.keys.serverWriteKey) (iv := out.keys.serverIv)
      (expected := out.sfVd) (vm := vm7) (fun id h h' => by rw [o7 id (.inr (by omega))]; exact hfree id (by omega)) sf.nonce
      sf.ciphertext hsn
    obtain ⟨vm8, e8, le8, -, s0, s1, s2, -⟩ := b4 h16'
    have le : vm6.committed.Le vm8.committed := fun i v h => le8 i v (le7 i v h)
    have d8 := d6.mono le
    rw [e7]
    simp only [Outcome.bind_ok, e8]
    refine ⟨_, rfl, ?_, ?_, ?_⟩
    · intro fill
      have k1 : vm8.execute.recv out.keys.clientWriteKey.val = _ := d8.ck
      have k2 : vm8.execute.recv out.keys.clientIv.val = _ := d8.ci
      have k3 : vm8.execute.recv out.keys.serverWriteKey.val = _ := d8.sk
      have k4 : vm8.execute.recv out.keys.serverIv.val = _ := d8.si
      have k5 : vm8.execute.recv (Ref.map (fun k => (aes k (List.replicate 16 0)).toList) out.keys.serverWriteKey.val) =
          some (aes (((S.keyBlock ms cr sr).drop 16).take 16) (List.replicate 16 0)).toList := by
        show Option.map _ (out.keys.serverWriteKey.val.run vm8.committed) = _
        rw [d8.sk]
        rfl
      simp only [keyMemory, refsOf, k1, k2, k3, k4, k5, keysOf]
    · exact check_value aes d8.ck d8.ci (Ref.mono _ _ _ _ le hcv6) (le8 _ _ n0) (le8 _ _ n1) (le8 _ _ n2) hcn h16
    · exact check_value aes d8.sk d8.si (Ref.mono _ _ _ _ le hsv6) s0 s1 s2 hsn h16'

end Tlsn.Proxy
