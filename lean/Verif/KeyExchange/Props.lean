import Verif.KeyExchange.System
import Verif.Prf.Props

/-!
# C45: the key exchange computes the pre-master secret of the client and the server

# C68: the session keys are those the server derives
-/

namespace Tlsn

open Hmac Kex

/-! ## The point addition -/

/-- C45: for any two points with different x coordinates, and any shares that the conversions choose, the outputs of the
parties add up to the x coordinate of the sum of the points. -/
theorem C45_shares (C : Conv) (hC : C.Correct) (P Q : Point) (xp xq : Fp) (hp : xOf P = some xp) (hq : xOf Q = some xq)
    (hx : xp ≠ xq) :
    ∃ sl sf, deriveXCoordShares C (encodePoint P) (encodePoint Q) = (.ok sl, .ok sf) ∧ xOf (P + Q) = some (sl + sf) := by
  match P, Q, hp, hq with
  | .some x₁ y₁ h₁, .some x₂ y₂ h₂, hp, hq =>
    obtain rfl : x₁ = xp := Option.some.inj hp
    obtain rfl : x₂ = xq := Option.some.inj hq
    obtain ⟨al, bl, af, bf, ha, hb, -, -, hd⟩ := derive_eq hC h₁ h₂
    have hne : x₁ - x₂ ≠ 0 := sub_ne_zero.2 hx
    have hbl : bl ≠ 0 := by rintro rfl; rw [zero_mul] at hb; exact hne hb.symm
    have hbf : bf ≠ 0 := by rintro rfl; rw [mul_zero] at hb; exact hne hb.symm
    obtain ⟨dl, df, hs, he⟩ := hd hbl hbf
    refine ⟨_, _, he, ?_⟩
    rw [x_add h₁ h₂ hx, ← ha, ← hb]
    congr 1
    have : dl + df = (al * af / (bl * bf)) ^ 2 := by
      rw [hs]
      field_simp
    linear_combination -this

/-- C45: if the x coordinates are equal, one of the parties panics. -/
theorem C45_same_x (C : Conv) (hC : C.Correct) (P Q : Point) (x : Fp) (hp : xOf P = some x) (hq : xOf Q = some x) :
    (deriveXCoordShares C (encodePoint P) (encodePoint Q)).1 = .panic ∨
      (deriveXCoordShares C (encodePoint P) (encodePoint Q)).2 = .panic := by
  match P, Q, hp, hq with
  | .some x₁ y₁ h₁, .some x₂ y₂ h₂, hp, hq =>
    cases hp
    cases hq
    obtain ⟨al, bl, af, bf, -, hb, hl, hf, -⟩ := derive_eq hC h₁ h₂
    rw [sub_self] at hb
    rcases mul_eq_zero.1 hb with h | h
    · exact Or.inl (hl h)
    · exact Or.inr (hf h)

/-- C45: the identity has no shares. -/
theorem C45_identity (C : Conv) (e : EncodedPoint) :
    (deriveXCoordShares C (encodePoint .zero) e).1 = .err .key ∧ (deriveXCoordShares C e (encodePoint .zero)).2 = .err .key := by
  constructor
  · have : xShareStart .leader (encodePoint .zero) = .err .key := rfl
    simp only [deriveXCoordShares, this, orLost]
  · have : xShareStart .follower (encodePoint .zero) = .err .key := rfl
    simp only [deriveXCoordShares, this]
    rcases xShareStart .leader e with ⟨x, i⟩ | _ | _ <;> rfl

/-! ## The circuit -/

/-- C45: on shares of field elements the circuit gives the big-endian bytes of both sums, and its check is zero exactly if the
sums agree. -/
theorem C45_circuit (A : AddMod) (a0 b0 a1 b1 : Fp) :
    (pmsCall A (fpBytes a0) (fpBytes b0) (fpBytes a1) (fpBytes b1) modulusBytes).1 = beBytes 32 (a0 + b0).val ∧
    (pmsCall A (fpBytes a0) (fpBytes b0) (fpBytes a1) (fpBytes b1) modulusBytes).2.1 = beBytes 32 (a1 + b1).val ∧
    ((pmsCall A (fpBytes a0) (fpBytes b0) (fpBytes a1) (fpBytes b1) modulusBytes).2.2 = List.replicate 32 0 ↔
      a0 + b0 = a1 + b1) := by
  obtain ⟨e, h, he⟩ := pmsCall_fp A a0 b0 a1 b1
  rw [h]
  exact ⟨rfl, rfl, he⟩

/-- C45: whatever the inputs are, the check is zero exactly if the two results are equal. -/
theorem C45_check (A : AddMod) (a0 b0 a1 b1 m : Bytes) :
    (pmsCall A a0 b0 a1 b1 m).2.2 = List.replicate 32 0 ↔ (pmsCall A a0 b0 a1 b1 m).1 = (pmsCall A a0 b0 a1 b1 m).2.1 :=
  pmsCall_check A a0 b0 a1 b1 m

/-! ## The protocol -/

/-- A run of the leader and the follower with each other in the order in which the sessions call it.  The result is the client
key, the reference to the pre-master secret of each party, and the machine at the end. -/
def exchange (A : AddMod) (C0 C1 : Conv) (a b : Nat) (serverKey : Point) (vm : Vm) :
    Outcome KxError (Point × VecRef × VecRef × Vm) :=
  let l := (Kx.new .leader a).alloc A vm
  let f := (Kx.new .follower b).alloc A vm
  l.2.2 >>= fun pmsL => f.2.2 >>= fun pmsF =>
  let f1 := f.1.setup (some f.1.publicKey)
  let l1 := l.1.setup (some f.1.publicKey)
  f1.2 >>= fun _ => l1.2 >>= fun _ =>
  l1.1.clientKey >>= fun clientKey =>
  let r := computeSharesBoth C0 C1 (l1.1.setServerKey serverKey) (f1.1.setServerKey serverKey)
  r.1.2 >>= fun _ => r.2.2 >>= fun _ =>
  let l2 := r.1.1.assign l.2.1
  l2.2.2 >>= fun _ =>
  let f2 := r.2.1.assign l2.2.1
  f2.2.2 >>= fun _ =>
  let vm := f2.2.1.execute
  (l2.1.finalize vm).2 >>= fun _ => (f2.1.finalize vm).2 >>= fun _ =>
  .ok (clientKey, pmsL, pmsF, vm)

/-- C45: for all keys of the parties and the server, the client key is the sum of the public keys of the parties, both parties
accept, they hold references to the same value, and that value is the x coordinate of the Diffie-Hellman secret that the server
computes from the client key.  A PRF can be allocated for it. -/
theorem C45_exchange (A : AddMod) (C0 C1 : Conv) (h0 : C0.Correct) (h1 : C1.Correct) (vm : Vm) (hvm : vm.Fresh)
    (a b s : Nat) (xa xb : Fp) (ha : xOf (a • s • basePoint) = some xa) (hb : xOf (b • s • basePoint) = some xb)
    (hx : xa ≠ xb) :
    ∃ pms vm' x, exchange A C0 C1 a b (s • basePoint) vm = .ok (a • basePoint + b • basePoint, pms, pms, vm') ∧
      xOf (s • (a • basePoint + b • basePoint)) = some x ∧ vm'.recv pms.val = some (beBytes 32 x.val) ∧
      vm'.executed = vm'.committed ∧ vm'.Fresh ∧ pms.Sized ∧ pms.len = 32 := by
  obtain ⟨l0, f0, e0, s0⟩ := C45_shares C0 h0 _ _ xa xb ha hb hx
  obtain ⟨l1, f1, e1, s1⟩ := C45_shares C1 h1 _ _ xa xb ha hb hx
  have hsum : s • (a • basePoint + b • basePoint) = a • s • basePoint + b • s • basePoint := by
    rw [nsmul_add, ← mul_nsmul, ← mul_nsmul, ← mul_nsmul, ← mul_nsmul, mul_comm a, mul_comm b]
  have hagree : l0 + f0 = l1 + f1 := Option.some.inj (s0.symm.trans s1)
  have hck : a • basePoint + b • basePoint ≠ 0 := by
    intro hz
    rw [hz, nsmul_zero] at hsum
    rw [← hsum] at s0
    cases s0
  have fromNZ : ∀ p : Point, p ≠ 0 → publicKeyFrom p = .ok p := by
    intro p hp
    match p, hp with
    | .zero, hp => exact absurd rfl hp
    | .some x y h, _ => rfl
  have nz : ∀ {p : Point} {x : Fp}, xOf p = some x → p ≠ 0 := by
    rintro p x hp rfl
    cases hp
  have hl := alloc_fresh A (k := Kx.new .leader a) (vm := vm) rfl hvm
  have hf := alloc_fresh A (k := Kx.new .follower b) (vm := vm) rfl hvm
  have u : ∀ i, vm.committed (vm.next + i) = none := fun i => hvm.unused _ (by omega)
  have u0 := u 0
  rw [Nat.add_zero] at u0
  obtain ⟨e, hcall, he⟩ := pmsCall_fp A l0 f0 l1 f1
  have hez : e = List.replicate 32 0 := he.2 hagree
  subst hez
  have q1 : ¬ vm.next = vm.next + 4 := by omega
  have q2 : ¬ vm.next + 2 = vm.next := by omega
  have q3 : ¬ vm.next + 2 = vm.next + 4 := by omega
  have q4 : ¬ vm.next + 1 = vm.next + 2 := by omega
  have q5 : ¬ vm.next + 1 = vm.next := by omega
  have q6 : ¬ vm.next + 1 = vm.next + 4 := by omega
  have q7 : ¬ vm.next + 3 = vm.next + 1 := by omega
  have q8 : ¬ vm.next + 3 = vm.next + 2 := by omega
  have q9 : ¬ vm.next + 3 = vm.next := by omega
  have q10 : ¬ vm.next + 3 = vm.next + 4 := by omega
  have hset : ∀ k : Kx, ∀ sl p, k.state = .setup sl →
      k.setup (some p) = ({ k with state := .followerKey (match k.role with | .leader => p | .follower => k.publicKey) sl }, .ok ()) := by
    intro k sl p hk
    cases hr : k.role <;> simp only [Kx.setup, hk, hr]
  have hcs : computeSharesBoth C0 C1 ⟨.leader, .followerKey (b • basePoint) (slotsAt A vm.next), a, some (s • basePoint)⟩
      ⟨.follower, .followerKey (b • basePoint) (slotsAt A vm.next), b, some (s • basePoint)⟩ =
      ((⟨.leader, .computed (slotsAt A vm.next) l0 l1, a, some (s • basePoint)⟩, .ok ()),
       (⟨.follower, .computed (slotsAt A vm.next) f0 f1, b, some (s • basePoint)⟩, .ok ())) := by
    simp only [computeSharesBoth, Kx.sharePoint, fromNZ _ (nz ha), fromNZ _ (nz hb), Outcome.bind_ok, e0, e1, Kx.storeShares]
  have hal : Kx.assign ⟨.leader, .computed (slotsAt A vm.next) l0 l1, a, some (s • basePoint)⟩ (vmAlloc vm) =
      (⟨.leader, .equalityCheck (outAt A vm.next (·.2.2)).val, a, some (s • basePoint)⟩,
        ⟨vm.next + 5, fun j => if j = vm.next + 2 then some (fpBytes l1) else if j = vm.next then some (fpBytes l0) else
          if j = vm.next + 4 then some modulusBytes else vm.committed j, vm.executed⟩, .ok ()) := by
    simp only [Kx.assign, Kx.ownSlots, slotsAt, inp, Vm.assign, vmAlloc, fpBytes_length, ne_eq, not_true_eq_false, if_false,
      if_neg q1, if_neg q2, if_neg q3, u0, u 2, Option.isSome_none, Bool.false_eq_true]
  have haf : Kx.assign ⟨.follower, .computed (slotsAt A vm.next) f0 f1, b, some (s • basePoint)⟩
        ⟨vm.next + 5, fun j => if j = vm.next + 2 then some (fpBytes l1) else if j = vm.next then some (fpBytes l0) else
          if j = vm.next + 4 then some modulusBytes else vm.committed j, vm.executed⟩ =
      (⟨.follower, .equalityCheck (outAt A vm.next (·.2.2)).val, b, some (s • basePoint)⟩,
        ⟨vm.next + 5, fun j => if j = vm.next + 3 then some (fpBytes f1) else if j = vm.next + 1 then some (fpBytes f0) else
          if j = vm.next + 2 then some (fpBytes l1) else if j = vm.next then some (fpBytes l0) else
          if j = vm.next + 4 then some modulusBytes else vm.committed j, vm.executed⟩, .ok ()) := by
    simp only [Kx.assign, Kx.ownSlots, slotsAt, inp, Vm.assign, fpBytes_length, ne_eq, not_true_eq_false, if_false,
      if_neg q4, if_neg q5, if_neg q6, if_neg q7, if_neg q8, if_neg q9, if_neg q10, u 1, u 3, Option.isSome_none,
      Bool.false_eq_true]
  have hck2 : Kx.clientKey ⟨.leader, .followerKey (b • basePoint) (slotsAt A vm.next), a, none⟩ =
      .ok (a • basePoint + b • basePoint) := by
    simp only [Kx.clientKey, Kx.publicKey, fromNZ _ hck]
  simp only [exchange, hl, hf, Outcome.bind_ok]
  rw [hset _ _ _ rfl, hset _ _ _ rfl]
  simp only [Kx.new, Kx.publicKey, Outcome.bind_ok, Kx.setServerKey]
  rw [hck2, hcs]
  simp only [Outcome.bind_ok]
  rw [hal]
  simp only [Outcome.bind_ok]
  rw [haf]
  simp only [Outcome.bind_ok]
  set E : Env := fun j => if j = vm.next + 3 then some (fpBytes f1) else if j = vm.next + 1 then some (fpBytes f0) else
    if j = vm.next + 2 then some (fpBytes l1) else if j = vm.next then some (fpBytes l0) else
    if j = vm.next + 4 then some modulusBytes else vm.committed j with hE
  have r0 : E vm.next = some (fpBytes l0) := by simp [hE]
  have r1 : E (vm.next + 1) = some (fpBytes f0) := by simp [hE]
  have r2 : E (vm.next + 2) = some (fpBytes l1) := by simp [hE]
  have r3 : E (vm.next + 3) = some (fpBytes f1) := by simp [hE]
  have r4 : E (vm.next + 4) = some modulusBytes := by simp [hE]
  have run : ∀ out, (outAt A vm.next out).val.run E =
      some (out (pmsCall A (fpBytes l0) (fpBytes f0) (fpBytes l1) (fpBytes f1) modulusBytes)) := fun out =>
    outAt_run.2 ⟨_, _, _, _, _, ⟨r0, fpBytes_length _⟩, ⟨r1, fpBytes_length _⟩, ⟨r2, fpBytes_length _⟩, ⟨r3, fpBytes_length _⟩,
      ⟨r4, rfl⟩, rfl⟩
  have hfin : ∀ k : Kx, k.state = .equalityCheck (outAt A vm.next (·.2.2)).val → ∀ vm', vm'.executed = E →
      (k.finalize vm').2 = .ok () := by
    intro k hk vm' hv
    simp only [Kx.finalize, hk, Vm.recv, hv, run, hcall, not_true_eq_false, if_false, ne_eq]
  rw [hfin _ rfl _ rfl, Outcome.bind_ok, hfin _ rfl _ rfl, Outcome.bind_ok]
  refine ⟨_, _, l0 + f0, rfl, by rw [hsum]; exact s0, ?_, rfl, ⟨fun id hid => ?_, fun _ _ hv => hv⟩, outAt_sized A vm.next, rfl⟩
  · show (outAt A vm.next (·.1)).val.run E = _
    rw [run, hcall]
    rfl
  · replace hid : vm.next + 5 ≤ id := hid
    show E id = none
    simp only [hE]
    rw [if_neg (by omega), if_neg (by omega), if_neg (by omega), if_neg (by omega), if_neg (by omega)]
    exact hvm.unused id (by omega)

/-- C45: in every history of one party, with whatever shares it obtains and whatever its peer puts into the machine, a successful
`finalize` means that the pre-master secret has a value, that it is what the circuit gives for the shares of this party and some
shares of the peer, and that both computations of it agree. -/
theorem C45_finalize (A : AddMod) (role : Role) (sk : Nat) (vm : Vm) (hvm : vm.executed.Le vm.committed) (ops : List KxOp)
    (h : ((runKx A ops (Kx.new role sk, vm)).1.finalize (runKx A ops (Kx.new role sk, vm)).2).2 = .ok ()) :
    ∃ pre post pms p0 p1 o0 o1, ops = pre ++ .alloc :: post ∧
      ((runKx A pre (Kx.new role sk, vm)).1.alloc A (runKx A pre (Kx.new role sk, vm)).2).2.2 = .ok pms ∧
      KxOp.computeShares (.ok p0) (.ok p1) ∈ post ∧
      let r := match role with
        | .leader => pmsCall A (fpBytes p0) o0 (fpBytes p1) o1 modulusBytes
        | .follower => pmsCall A o0 (fpBytes p0) o1 (fpBytes p1) modulusBytes
      (runKx A ops (Kx.new role sk, vm)).2.recv pms.val = some r.1 ∧ r.1 = r.2.1 := by
  have hrole : ∀ (ops : List KxOp) (s : Kx × Vm), (runKx A ops s).1.role = s.1.role := by
    intro ops
    induction ops with
    | nil => intro s; rfl
    | cons op ops ih => intro s; rw [runKx, ih, role_step]
  rcases finalize_cases (runKx A ops (Kx.new role sk, vm)).1 (runKx A ops (Kx.new role sk, vm)).2 with
    ⟨eq, hs, hv, -⟩ | ⟨-, e, he⟩
  · rcases run_inv A (Kx.new role sk) vm hvm rfl ops with ⟨hst, -⟩ | ⟨pre, post, pms, h1, h2, h3, h4⟩
    · rcases hst with hst | hst <;> rw [hst] at hs <;> cases hs
    · obtain ⟨heq, hm, p0, p1, hmem, hown⟩ := h4.check eq hs
      have hr := hrole ops (Kx.new role sk, vm)
      rw [hr] at hown
      generalize hfin : runKx A ops (Kx.new role sk, vm) = fin at hs hv h4 hm hown
      generalize hn : (runKx A pre (Kx.new role sk, vm)).2.next = n at *
      rw [heq] at hv
      obtain ⟨v0, v1, v2, v3, v4, w0, w1, w2, w3, w4, hz⟩ := outAt_run.1 hv
      have m4 : v4 = modulusBytes := Option.some.inj ((h4.le _ _ w4.1).symm.trans hm)
      have hrun : fin.2.recv pms.val = some (pmsCall A v0 v1 v2 v3 v4).1 := by
        rw [h3]
        exact outAt_run.2 ⟨v0, v1, v2, v3, v4, w0, w1, w2, w3, w4, rfl⟩
      have hagree := (pmsCall_check A v0 v1 v2 v3 v4).1 hz.symm
      cases role with
      | leader =>
        simp only [Kx.new] at hown
        have m0 : v0 = fpBytes p0 := Option.some.inj ((h4.le _ _ w0.1).symm.trans hown.1)
        have m2 : v2 = fpBytes p1 := Option.some.inj ((h4.le _ _ w2.1).symm.trans hown.2)
        subst m0 m2 m4
        exact ⟨pre, post, pms, p0, p1, v1, v3, h1, h2, hmem, hrun, hagree⟩
      | follower =>
        simp only [Kx.new] at hown
        have m0 : v1 = fpBytes p0 := Option.some.inj ((h4.le _ _ w1.1).symm.trans hown.1)
        have m2 : v3 = fpBytes p1 := Option.some.inj ((h4.le _ _ w3.1).symm.trans hown.2)
        subst m0 m2 m4
        exact ⟨pre, post, pms, p0, p1, v0, v2, h1, h2, hmem, hrun, hagree⟩
  · rw [he] at h; cases h

/-- C45: in every history the steps that succeed are the first steps of the protocol, in its order and once each. -/
theorem C45_order (A : AddMod) (role : Role) (sk : Nat) (vm : Vm) (ops : List KxOp) :
    succeeded A ops (Kx.new role sk, vm) <+: [.alloc, .setup, .computeShares, .assign, .finalize] := by
  simpa using done_succeeded A ops (s := (Kx.new role sk, vm)) (d := []) rfl

/-- C45: after a step has failed, no step succeeds any more. -/
theorem C45_failed (A : AddMod) (s : Kx × Vm) (op : KxOp) (hop : op.phase ≠ none) (h : (op.step A s).2 = false)
    (post : List KxOp) : succeeded A post (op.step A s).1 = [] := by
  obtain ⟨p, hp⟩ := Option.ne_none_iff_exists'.1 hop
  exact succeeded_error A post ((step_phase A op s).2.1 p hp h)

/-- C45: only the leader learns the client key, and only between `setup` and `compute_shares`. -/
theorem C45_client_key (k : Kx) (p : Point) (h : k.clientKey = .ok p) :
    k.role = .leader ∧ p ≠ 0 ∧ ∃ fk s, k.state = .followerKey fk s ∧ p = k.privateKey • basePoint + fk := by
  unfold Kx.clientKey at h
  split at h
  · cases h
  · rename_i hr
    split at h
    · rename_i fk s hs
      have key : ∀ q : Point, publicKeyFrom q = .ok p → p = q ∧ p ≠ 0 := by
        intro q hq
        match q, hq with
        | .some x y hh, hq => cases hq; exact ⟨rfl, WeierstrassCurve.Affine.Point.some_ne_zero hh⟩
      obtain ⟨h1, h2⟩ := key _ h
      exact ⟨hr, h2, fk, s, hs, h1⟩
    · cases h

/-! ## C68 -/

theorem secret_value (A : AddMod) (C0 C1 : Conv) (h0 : C0.Correct) (h1 : C1.Correct) (vm0 : Vm) (hvm : vm0.Fresh)
    (a b s : Nat) (xa xb : Fp) (ha : xOf (a • s • basePoint) = some xa) (hb : xOf (b • s • basePoint) = some xb)
    (hx : xa ≠ xb) (clientKey : Point) (pms pms' : VecRef) (vmE : Vm)
    (hex : exchange A C0 C1 a b (s • basePoint) vm0 = .ok (clientKey, pms, pms', vmE)) (vm : Vm)
    (hm : ∀ id v, vmE.committed id = some v → vm.committed id = some v) :
    ∃ x, xOf (s • clientKey) = some x ∧ pms.val.run vm.committed = some (beBytes 32 x.val) := by
  obtain ⟨q, vm', x, e1, e2, e3, hcom, -, -, -⟩ := C45_exchange A C0 C1 h0 h1 vm0 hvm a b s xa xb ha hb hx
  rw [e1] at hex
  cases hex
  refine ⟨x, e2, pms.val.mono vmE.committed _ _ hm ?_⟩
  rw [← hcom]
  exact e3

/-- C68: in a session in which the shares of the exchange are what is committed for the secret of the PRF, every session key that
is decoded is the slice of the key block that the server derives from its own Diffie-Hellman secret, its own key times the client
key it was sent. -/
theorem C68_session_keys (A : AddMod) (C0 C1 : Conv) (h0 : C0.Correct) (h1 : C1.Correct) (vm0 : Vm) (hvm : vm0.Fresh)
    (a b s : Nat) (xa xb : Fp) (ha : xOf (a • s • basePoint) = some xa) (hb : xOf (b • s • basePoint) = some xb)
    (hx : xa ≠ xb) (clientKey : Point) (pms pms' : VecRef) (vmE : Vm)
    (hex : exchange A C0 C1 a b (s • basePoint) vm0 = .ok (clientKey, pms, pms', vmE))
    {S : Sha} {cfg : PrfConfig} {ops : List PrfOp} {prf : Prf} {vm : Vm} {out : PrfOutput}
    (h : PrfRun S cfg pms ops prf vm out) (hm : ∀ id v, vmE.committed id = some v → vm.committed id = some v) (v : Bytes) :
    ∃ x, xOf (s • clientKey) = some x ∧
      (vm.recv out.keys.clientWriteKey.val = some v →
        ∃ blk, IsKeyBlock S cfg.ms ops (beBytes 32 x.val) blk ∧ v = blk.take 16) ∧
      (vm.recv out.keys.serverWriteKey.val = some v →
        ∃ blk, IsKeyBlock S cfg.ms ops (beBytes 32 x.val) blk ∧ v = (blk.drop 16).take 16) ∧
      (vm.recv out.keys.clientIv.val = some v →
        ∃ blk, IsKeyBlock S cfg.ms ops (beBytes 32 x.val) blk ∧ v = (blk.drop 32).take 4) ∧
      (vm.recv out.keys.serverIv.val = some v →
        ∃ blk, IsKeyBlock S cfg.ms ops (beBytes 32 x.val) blk ∧ v = (blk.drop 36).take 4) := by
  obtain ⟨x, e2, hk⟩ := secret_value A C0 C1 h0 h1 vm0 hvm a b s xa xb ha hb hx clientKey pms pms' vmE hex vm hm
  obtain ⟨k1, k2, k3, k4⟩ := C44_session_keys h v
  refine ⟨x, e2, fun hv => ?_, fun hv => ?_, fun hv => ?_, fun hv => ?_⟩
  · obtain ⟨k, blk, g1, g2, g3⟩ := k1 hv
    rw [hk] at g1; cases g1
    exact ⟨blk, g2, g3⟩
  · obtain ⟨k, blk, g1, g2, g3⟩ := k2 hv
    rw [hk] at g1; cases g1
    exact ⟨blk, g2, g3⟩
  · obtain ⟨k, blk, g1, g2, g3⟩ := k3 hv
    rw [hk] at g1; cases g1
    exact ⟨blk, g2, g3⟩
  · obtain ⟨k, blk, g1, g2, g3⟩ := k4 hv
    rw [hk] at g1; cases g1
    exact ⟨blk, g2, g3⟩

/-- C68: once the randoms are set, flushing the PRF makes the session keys available. -/
theorem C68_keys_available (A : AddMod) (C0 C1 : Conv) (h0 : C0.Correct) (h1 : C1.Correct) (vm0 : Vm) (hvm : vm0.Fresh)
    (a b s : Nat) (xa xb : Fp) (ha : xOf (a • s • basePoint) = some xa) (hb : xOf (b • s • basePoint) = some xb)
    (hx : xa ≠ xb) (clientKey : Point) (pms pms' : VecRef) (vmE : Vm)
    (hex : exchange A C0 C1 a b (s • basePoint) vm0 = .ok (clientKey, pms, pms', vmE))
    {S : Sha} {cfg : PrfConfig} {ops : List PrfOp} {prf : Prf} {vm : Vm} {out : PrfOutput}
    (h : PrfRun S cfg pms ops prf vm out) (hm : ∀ id v, vmE.committed id = some v → vm.committed id = some v)
    (hz : Sizes ops) (cr sr : Bytes) (hcr : clientRandoms ops = [cr]) (hsr : serverRandoms ops = [sr])
    (hms : cfg.ms = .standard) :
    ∃ x prf' vm', xOf (s • clientKey) = some x ∧ flushPrf S 11 prf vm = some (.ok (prf', vm')) ∧
      let blk := S.keyBlock (S.masterSecret (beBytes 32 x.val) cr sr) cr sr
      vm'.execute.recv out.keys.clientWriteKey.val = some (blk.take 16) ∧
      vm'.execute.recv out.keys.serverWriteKey.val = some ((blk.drop 16).take 16) ∧
      vm'.execute.recv out.keys.clientIv.val = some ((blk.drop 32).take 4) ∧
      vm'.execute.recv out.keys.serverIv.val = some ((blk.drop 36).take 4) := by
  obtain ⟨x, e2, hk⟩ := secret_value A C0 C1 h0 h1 vm0 hvm a b s xa xb ha hb hx clientKey pms pms' vmE hex vm hm
  have hr : MasterReady cfg.ms ops := by rw [hms]; show serverRandoms ops ≠ []; rw [hsr]; exact List.cons_ne_nil _ _
  obtain ⟨prf', vm', m, g1, g2, -, g3, -, -⟩ := C44_flush_loop h hz hr _ hk
  rw [hms] at g2
  obtain ⟨cr', sr', a1, a2, rfl⟩ := g2
  rw [hcr] at a1; rw [hsr] at a2; cases a1; cases a2
  exact ⟨x, prf', vm', e2, g1, g3 cr sr hcr hsr⟩

/-! ## Examples -/

/-- A conversion that leaves everything to one party. -/
def plainConv : Conv :=
  ⟨fun xs ys => some (List.zipWith (· + ·) xs ys, xs.map fun _ => 1), fun xs ys => some (List.zipWith (· * ·) xs ys, xs.map fun _ => 0)⟩

theorem plainConv_correct : plainConv.Correct := by
  have one : ∀ (zs xs : List Fp), zs.length = xs.length → List.zipWith (· * ·) zs (xs.map fun _ => (1 : Fp)) = zs := by
    intro zs xs h
    refine List.ext_getElem (by simp [h]) fun i h1 h2 => ?_
    simp
  have zero : ∀ (zs xs : List Fp), zs.length = xs.length → List.zipWith (· + ·) zs (xs.map fun _ => (0 : Fp)) = zs := by
    intro zs xs h
    refine List.ext_getElem (by simp [h]) fun i h1 h2 => ?_
    simp
  constructor
  · intro xs ys h
    exact ⟨_, _, rfl, by simp [h], by simp, one _ _ (by simp [h])⟩
  · intro xs ys h
    exact ⟨_, _, rfl, by simp [h], by simp, zero _ _ (by simp [h])⟩

/-- An adder. -/
def plainAdd : AddMod where
  run a b m := (List.range 256).map fun i => ((bitsNat a + bitsNat b) % bitsNat m).testBit i
  length := by intros; simp
  spec := by
    intro a b m _ _ hm ha hb
    have hlt : (bitsNat a + bitsNat b) % bitsNat m < 2 ^ 256 :=
      lt_trans (Nat.mod_lt _ (by omega)) (by have := bitsNat_lt m; rw [hm] at this; exact this)
    have key : ∀ k n, n < 2 ^ k → bitsNat ((List.range k).map fun i => n.testBit i) = n := by
      intro k
      induction k with
      | zero => intro n h; simp at h; subst h; rfl
      | succ k ih =>
        intro n h
        rw [List.range_succ_eq_map, List.map_cons, List.map_map, bitsNat]
        have : ((fun i => n.testBit i) ∘ Nat.succ) = fun i => (n / 2).testBit i := by
          funext i
          simp [Nat.testBit_succ]
        rw [this, ih (n / 2) (by rw [Nat.pow_succ] at h; omega), Nat.testBit_zero]
        rcases Nat.mod_two_eq_zero_or_one n with h0 | h0 <;> simp [h0] <;> omega
    exact key 256 _ hlt

/-- The x coordinate of twice the base point. -/
theorem xOf_double : ∃ x, xOf (2 • basePoint) = some x ∧ x ≠ (baseX : Fp) := by
  have hy : (baseY : Fp) ≠ curve.negY (baseX : Fp) (baseY : Fp) := by
    simp only [WeierstrassCurve.Affine.negY, curve]
    intro h
    refine natCast_ne_zero (y := 2 * baseY) (by decide +kernel) ?_
    push_cast
    linear_combination h
  rw [two_nsmul, basePoint, WeierstrassCurve.Affine.Point.add_self_of_Y_ne hy]
  refine ⟨_, rfl, ?_⟩
  rw [WeierstrassCurve.Affine.slope_of_Y_ne rfl hy]
  simp only [WeierstrassCurve.Affine.negY, curve, WeierstrassCurve.Affine.addX]
  intro h
  have hd : (2 * (baseY : Fp)) ^ 2 ≠ 0 := by
    refine pow_ne_zero 2 fun h0 => natCast_ne_zero (y := 2 * baseY) (by decide +kernel) ?_
    push_cast
    exact h0
  have hs : (3 * (baseX : Fp) ^ 2 - 3) ^ 2 / (2 * (baseY : Fp)) ^ 2 = 3 * (baseX : Fp) := by
    rw [← div_pow]
    have e1 : 3 * (baseX : Fp) ^ 2 + 2 * 0 * (baseX : Fp) + -3 - 0 * (baseY : Fp) = 3 * (baseX : Fp) ^ 2 - 3 := by ring
    have e2 : (baseY : Fp) - (-(baseY : Fp) - 0 * (baseX : Fp) - 0) = 2 * (baseY : Fp) := by ring
    rw [e1, e2] at h
    linear_combination h
  rw [div_eq_iff hd] at hs
  have h2 : (((3 * baseX ^ 2 + (p256 - 3)) ^ 2 : Nat) : Fp) = ((3 * baseX * (2 * baseY) ^ 2 : Nat) : Fp) := by
    have hp : ((p256 - 3 : Nat) : Fp) = -3 := by
      rw [Nat.cast_sub (by decide +kernel)]
      simp
    push_cast [hp]
    linear_combination hs
  rw [ZMod.natCast_eq_natCast_iff] at h2
  exact absurd h2 (by decide +kernel)

/-- A fresh machine. -/
def emptyVm : Vm := ⟨0, fun _ => none, fun _ => none⟩

theorem emptyVm_fresh : emptyVm.Fresh := ⟨fun _ _ => rfl, fun _ _ h => h⟩

example : ∃ sl sf x, deriveXCoordShares plainConv (encodePoint basePoint) (encodePoint (2 • basePoint)) = (.ok sl, .ok sf) ∧
    xOf (basePoint + 2 • basePoint) = some (sl + sf) ∧ xOf (2 • basePoint) = some x := by
  obtain ⟨x, h1, h2⟩ := xOf_double
  obtain ⟨sl, sf, h3, h4⟩ := C45_shares plainConv plainConv_correct basePoint (2 • basePoint) _ x rfl h1 h2.symm
  exact ⟨sl, sf, x, h3, h4, h1⟩

example : ∃ pms vm' x, exchange plainAdd plainConv plainConv 1 2 (1 • basePoint) emptyVm =
      .ok (1 • basePoint + 2 • basePoint, pms, pms, vm') ∧
    xOf (1 • (1 • basePoint + 2 • basePoint)) = some x ∧ vm'.recv pms.val = some (beBytes 32 x.val) := by
  obtain ⟨x, h1, h2⟩ := xOf_double
  obtain ⟨pms, vm', x', g1, g2, g3, -⟩ := C45_exchange plainAdd plainConv plainConv plainConv_correct plainConv_correct emptyVm
    emptyVm_fresh 1 2 1 (baseX : Fp) x (by rw [one_nsmul, one_nsmul]; rfl) (by rw [one_nsmul]; exact h1) h2.symm
  exact ⟨pms, vm', x', g1, g2, g3⟩

/-- A history of a leader in which `finalize` succeeds: the shares are 3 and 4, and 5 and 2. -/
def leaderHistory : List KxOp :=
  [.alloc, .setup (some basePoint), .setServerKey basePoint, .computeShares (.ok 3) (.ok 5), .assign, .peer 1 (fpBytes 4),
    .peer 3 (fpBytes 2), .execute]

def isOk {α : Type} : Outcome KxError α → Bool
  | .ok _ => true
  | _ => false

example : isOk ((runKx plainAdd leaderHistory (Kx.new .leader 1, emptyVm)).1.finalize
    (runKx plainAdd leaderHistory (Kx.new .leader 1, emptyVm)).2).2 = true := by decide +kernel

/-- With shares that do not agree it fails. -/
example : isOk ((runKx plainAdd (leaderHistory.set 6 (.peer 3 (fpBytes 6))) (Kx.new .leader 1, emptyVm)).1.finalize
    (runKx plainAdd (leaderHistory.set 6 (.peer 3 (fpBytes 6))) (Kx.new .leader 1, emptyVm)).2).2 = false := by decide +kernel

example : succeeded plainAdd [.alloc, .setup (some basePoint), .assign, .setServerKey basePoint, .computeShares (.ok 3) (.ok 5)]
    (Kx.new .leader 1, emptyVm) = [.alloc, .setup] := by decide +kernel

/-- A session: the exchange, and a PRF for its secret. -/
example : ∃ clientKey pms vmE prf vm out,
    exchange plainAdd plainConv plainConv 1 2 (1 • basePoint) emptyVm = .ok (clientKey, pms, pms, vmE) ∧
    PrfRun toySha ⟨.normal, .standard⟩ pms [.clientRandom (List.replicate 32 1), .serverRandom (List.replicate 32 2)] prf vm out ∧
    (∀ id v, vmE.committed id = some v → vm.committed id = some v) := by
  obtain ⟨x, h1, h2⟩ := xOf_double
  obtain ⟨pms, vmE, x', g1, -, -, -, g4, g5, g6⟩ := C45_exchange plainAdd plainConv plainConv plainConv_correct plainConv_correct
    emptyVm emptyVm_fresh 1 2 1 (baseX : Fp) x (by rw [one_nsmul, one_nsmul]; rfl) (by rw [one_nsmul]; exact h1) h2.symm
  obtain ⟨C, prf, vm, out, g, a1, a2, a3, a4, a5, a6, a7, a8, a9, a10, a11, a12, a13, a14, -⟩ :=
    allocPrf_ok toySha ⟨.normal, .standard⟩ vmE g4 pms g5 (by omega)
  have hst : prf.state = .setup g := by
    rcases a11.state with h | ⟨-, h⟩
    · exact h
    · exfalso
      simp only [PrfFns.isDone, Bool.and_eq_true] at h
      have := seed_of_done a11.fns.ke h.1.1.2
      rw [a13.ke] at this
      cases this
  have hms : ∃ f, g.masterSecret = some f := by
    have := a13.labels.ms
    cases hg : g.masterSecret with
    | none => rw [hg] at this; exact this.elim
    | some f => exact ⟨f, rfl⟩
  obtain ⟨f, hf⟩ := hms
  have hrun : ∃ prf', runOps toySha [.clientRandom (List.replicate 32 1), .serverRandom (List.replicate 32 2)] (prf, vm) =
      .ok (prf', vm) := by
    simp only [runOps, PrfOp.step, Outcome.bind_ok, Prf.setServerRandom, Prf.setClientRandom, hst, a13.config, hf]
    exact ⟨_, rfl⟩
  obtain ⟨prf', hrun⟩ := hrun
  refine ⟨_, pms, vmE, prf', vm, out, g1, ⟨⟨vmE, prf, vm, g4, a1, ?_, hrun⟩, g5, by omega, ?_⟩, ?_⟩
  · intro id v hv; simp at hv
  · constructor <;> decide
  · intro id v hv; rw [a14]; exact hv

example : ∃ C : Conv, C.Correct ∧ ((deriveXCoordShares C (encodePoint basePoint) (encodePoint basePoint)).1 = .panic ∨
    (deriveXCoordShares C (encodePoint basePoint) (encodePoint basePoint)).2 = .panic) :=
  ⟨plainConv, plainConv_correct, C45_same_x plainConv plainConv_correct basePoint basePoint _ rfl rfl⟩

end Tlsn
