import Verif.Gcm.Layer

/-! # C126, C127: which keys the record layer uses, and who learns them -/

namespace Tlsn.Gcm

theorem xorBytes_pad {K M : Bytes} (h : K.length = M.length) :
    ∃ pad : Bytes, (pad.length = K.length ∧ xorBytes K pad = M) ∧ ∀ q : Bytes, q.length = K.length ∧ xorBytes K q = M → q = pad := by
  refine ⟨xorBytes M K, ⟨by rw [xorBytes_length]; omega, ?_⟩, fun q hq => ?_⟩
  · rw [xorBytes_comm K, xorBytes_cancel _ _ (by omega)]
  · rw [← hq.2, xorBytes_comm K q, xorBytes_cancel _ _ (by omega)]

theorem MaskedOk.value {A : AesCircuits} {f : Nat → Option Byte} {vm : Vm} {key iv : Ref} {ko io : Bytes} {m : Masked}
    (h : MaskedOk vm .leader key iv ko io m) (hf : Inputs vm f) {K IV : Bytes} (hK : vm.value A f key = some K)
    (hIV : vm.value A f iv = some IV) : vm.value A f m.key = some (xorBytes K ko) ∧ vm.value A f m.iv = some (xorBytes IV io) := by
  obtain ⟨⟨p, h1, h2, h3⟩, ⟨q, g1, g2, g3⟩, -⟩ := h
  exact ⟨xor_value h1 hK ((h3 rfl).value h2 hf) (readRef_length hK), xor_value g1 hIV ((g3 rfl).value g2 hf) (readRef_length hIV)⟩

/-- C126: the record layer is set up with the keys of the PRF on any machine that contains them, with any amount of resources.  That
succeeds.  The references that are returned are those of the PRF, and whatever both ciphers are used for afterwards, in any order, no
use panics and, if the machine is executed with any inputs that include those that were assigned, all results of the encrypter are
those of AES in counter mode under the client's key and IV, all of the decrypter those under the server's, and the server write MAC
key is the block of zeros encrypted under the server's key.  For the follower all inputs are to be there. -/
theorem C126_directions {role : Role} {p : Pads} (hp : p.Ok) {vm : Vm} (hs : Sound vm) {k : PrfKeys} (hk : k.Ok vm)
    (sentRecords recvRecords sentLen recvLenOnline : Nat) :
    ∃ c vm' keys e d, allocKeys (.new role) p vm k sentRecords recvRecords sentLen recvLenOnline = (c, .ok (vm', keys)) ∧
      c.encrypter.state = .setup e ∧ c.decrypter.state = .setup d ∧
      keys.clientWriteKey = k.clientWriteKey ∧ keys.clientWriteIv = k.clientIv ∧ keys.serverWriteKey = k.serverWriteKey ∧
      keys.serverWriteIv = k.serverIv ∧
      ∀ (ops : List (Bool × GcmOp)) r, r = runBoth role ops e d vm' → r.2.2.2.length = ops.length ∧ .panic ∉ r.2.2.2 ∧
        ∀ (A : AesCircuits) (f : Nat → Option Byte) (CK CIV SK SIV : Bytes), Inputs r.2.2.1 f →
          (role = .follower → ∀ a, (f a).isSome) →
          r.2.2.1.value A f keys.clientWriteKey = some CK → r.2.2.1.value A f keys.clientWriteIv = some CIV →
          r.2.2.1.value A f keys.serverWriteKey = some SK → r.2.2.1.value A f keys.serverWriteIv = some SIV →
          r.2.2.1.value A f keys.serverWriteMacKey = some (A.aes SK (List.replicate 16 0)).toList ∧
          ∀ x ∈ ops.zip r.2.2.2, (x.1.1 = true → OutMeans A f r.2.2.1 (ctrMode A.aes CK CIV) x.1.2 x.2) ∧
            (x.1.1 = false → OutMeans A f r.2.2.1 (ctrMode A.aes SK SIV) x.1.2 x.2) := by
  obtain ⟨vm1, vm2, vm', e, d, ae, ad, m, h1, h2, -⟩ := allocKeys_spec (role := role) hp hs hk sentRecords recvRecords sentLen recvLenOnline
  refine ⟨_, vm', _, e, d, h1, rfl, rfl, rfl, rfl, rfl, rfl, ?_⟩
  rintro ops _ rfl
  obtain ⟨r1, r2, r3⟩ := runBoth_ok ops h2.enc h2.dec
  refine ⟨r2, fun hpn => ?_, fun A f CK CIV SK SIV hf hall hCK hCIV hSK hSIV => ⟨(h2.mac.later r1).value hf hSK, fun x hx => ?_⟩⟩
  · obtain ⟨i, hi, he⟩ := List.mem_iff_getElem.1 hpn
    have := r3 (ops[i]'(by omega), (runBoth role ops e d vm').2.2.2[i]) (by
      rw [List.mem_iff_getElem]
      exact ⟨i, by simp; omega, by simp⟩)
    rw [he] at this
    simp only at this
    revert this
    rcases ops[i]'(by omega) with ⟨b, op⟩
    cases b
    · rintro ⟨-, h⟩
      have h := h rfl
      revert h
      cases op <;> exact id
    · rintro ⟨h, -⟩
      have h := h rfl
      revert h
      cases op <;> exact id
  · have hpad : role ≠ .leader → ∀ a, ∃ b, f a = some b := fun hr a =>
      Option.isSome_iff_exists.1 (hall (by cases role; exact (hr rfl).elim; rfl) a)
    exact ⟨fun hb => ((r3 x hx).1 hb).means hCK hCIV hf hpad, fun hb => ((r3 x hx).2 hb).means hSK hSIV hf hpad⟩

/-- C127: once the machine has been executed at any later time, with any inputs that include those that the leader assigned, the leader
obtains exactly the server's key and IV, and decrypts with them. -/
theorem C127_leader_has_server_key {p : Pads} (hp : p.Ok) {vm : Vm} (hs : Sound vm) {k : PrfKeys} (hk : k.Ok vm)
    (sentRecords recvRecords sentLen recvLenOnline : Nat) :
    ∃ c vm' keys, allocKeys (.new .leader) p vm k sentRecords recvRecords sentLen recvLenOnline = (c, .ok (vm', keys)) ∧
      ∀ vm'', Later vm' vm'' → ∀ (A : AesCircuits) (f : Nat → Option Byte) (SK SIV : Bytes), Inputs vm'' f →
        vm''.value A f keys.serverWriteKey = some SK → vm''.value A f keys.serverWriteIv = some SIV →
        c.aesGcm.decodeKey.2 = .ok () ∧ (c.aesGcm.decodeKey.1.finishDecode (vm''.value A f)).2 = .ok () ∧
        ∀ gcm op, (c.aesGcm.decodeKey.1.finishDecode (vm''.value A f)).1.decrypt gcm op = localDecrypt (gcm SK SIV) op := by
  obtain ⟨vm1, vm2, vm', e, d, ae, ad, m, h1, h2, -⟩ := allocKeys_spec (role := .leader) hp hs hk sentRecords recvRecords sentLen recvLenOnline
  refine ⟨_, vm', _, h1, fun vm'' hl A f SK SIV hf hSK hSIV => ?_⟩
  have hm := h2.masked.later hl
  obtain ⟨v1, v2⟩ := hm.value hf hSK hSIV
  have l1 : SK.length = 16 := (readRef_length hSK).trans hk.serverKey.1
  have l2 : SIV.length = 4 := (readRef_length hSIV).trans hk.serverIv.1
  have ho := hm.otps
  simp only [if_true] at ho
  simp only [Ciphers.ready, LocalGcm.decodeKey, LocalGcm.finishDecode, ho.1, ho.2, v1, v2, LocalGcm.decrypt]
  refine ⟨trivial, trivial, fun gcm op => ?_⟩
  rw [xorBytes_cancel _ _ (by rw [l1, hp.key]; exact Nat.le_refl _), xorBytes_cancel _ _ (by rw [l2, hp.iv]; exact Nat.le_refl _)]

/-- C127: the follower does the same steps and has no key: whatever the machine decodes, it cannot decrypt. -/
theorem C127_follower_has_no_key {p : Pads} (hp : p.Ok) {vm : Vm} (hs : Sound vm) {k : PrfKeys} (hk : k.Ok vm)
    (sentRecords recvRecords sentLen recvLenOnline : Nat) :
    ∃ c vm' keys, allocKeys (.new .follower) p vm k sentRecords recvRecords sentLen recvLenOnline = (c, .ok (vm', keys)) ∧
      ∀ recv, c.aesGcm.decodeKey.2 = .ok () ∧ (c.aesGcm.decodeKey.1.finishDecode recv).2 = .ok () ∧
        (c.aesGcm.decodeKey.1.finishDecode recv).1.state = .ready none none ∧
        ∀ gcm op, (c.aesGcm.decodeKey.1.finishDecode recv).1.decrypt gcm op = .err .state := by
  obtain ⟨vm1, vm2, vm', e, d, ae, ad, m, h1, h2, -⟩ := allocKeys_spec (role := .follower) hp hs hk sentRecords recvRecords sentLen recvLenOnline
  exact ⟨_, vm', _, h1, fun recv => ⟨rfl, rfl, rfl, fun _ _ => rfl⟩⟩

/-- C127: both parties set the record layer up on machines with the same memory.  Then they have the same references for the session
keys, the machines have the same memory, and what is decoded for the leader is at the same place for both: the server's key and IV with
the pads of the leader.  For every key and IV there is exactly one pair of pads with which the same would be decoded, so the follower,
who does not know the pads, learns nothing about the key from it. -/
theorem C127_follower_learns_nothing {pl pf : Pads} (hl : pl.Ok) (hf : pf.Ok) {v w : Vm} (hvw : v.nodes = w.nodes) (sv : Sound v) (sw : Sound w)
    {k : PrfKeys} (hk : k.Ok v) (sentRecords recvRecords sentLen recvLenOnline : Nat) :
    ∃ cl v' cf w' keys ml mf,
      allocKeys (.new .leader) pl v k sentRecords recvRecords sentLen recvLenOnline = (cl, .ok (v', keys)) ∧
      allocKeys (.new .follower) pf w k sentRecords recvRecords sentLen recvLenOnline = (cf, .ok (w', keys)) ∧
      v'.nodes = w'.nodes ∧ cl.aesGcm.state = .alloc ml ∧ cf.aesGcm.state = .alloc mf ∧ mf.key = ml.key ∧ mf.iv = ml.iv ∧
      mf.keyOtp = none ∧ mf.ivOtp = none ∧
      ∀ v'' w'' : Vm, Later v' v'' → w''.nodes = v''.nodes → ∀ (A : AesCircuits) (f : Nat → Option Byte) (SK SIV : Bytes), Inputs v'' f →
        v''.value A f keys.serverWriteKey = some SK → v''.value A f keys.serverWriteIv = some SIV →
        w''.value A f mf.key = some (xorBytes SK pl.key) ∧ w''.value A f mf.iv = some (xorBytes SIV pl.iv) ∧
        (∀ K : Bytes, K.length = 16 → ∃ pad : Bytes, (pad.length = 16 ∧ xorBytes K pad = xorBytes SK pl.key) ∧
          ∀ q : Bytes, q.length = 16 ∧ xorBytes K q = xorBytes SK pl.key → q = pad) ∧
        ∀ IV : Bytes, IV.length = 4 → ∃ pad : Bytes, (pad.length = 4 ∧ xorBytes IV pad = xorBytes SIV pl.iv) ∧
          ∀ q : Bytes, q.length = 4 ∧ xorBytes IV q = xorBytes SIV pl.iv → q = pad := by
  have hr : ∀ {r : Ref}, InRange v r → InRange w r := fun {r} h => by simp only [InRange] at h ⊢; rw [← hvw]; exact h
  have hk' : k.Ok w := ⟨⟨hk.clientKey.1, hr hk.clientKey.2⟩, ⟨hk.serverKey.1, hr hk.serverKey.2⟩, ⟨hk.clientIv.1, hr hk.clientIv.2⟩,
    ⟨hk.serverIv.1, hr hk.serverIv.2⟩⟩
  obtain ⟨v1, v2, v', e, d, ae, ad, m, h1, h2, h3, h4, h5, h6, h7, h8, h9⟩ :=
    allocKeys_spec (role := .leader) hl sv hk sentRecords recvRecords sentLen recvLenOnline
  obtain ⟨w1, w2, w', e', d', ae', ad', m', g1, g2, g3, g4, g5, g6, g7, g8, g9⟩ :=
    allocKeys_spec (role := .follower) hf sw hk' sentRecords recvRecords sentLen recvLenOnline
  obtain ⟨p1, -⟩ := alloc_pair hl.encKey hf.encKey hl.encTags hf.encTags (fresh k.clientWriteKey k.clientIv) v w hvw sv sw
    (fresh_inUse _ hk.clientKey.1 hk.clientKey.2) (fresh_inUse _ hk.clientKey.1 hk'.clientKey.2) rfl rfl hk.clientIv.1 hk.clientIv.2
    sentRecords sentLen h3 g3
  obtain ⟨p2, -⟩ := alloc_pair hl.decKey hf.decKey hl.decTags hf.decTags (fresh k.serverWriteKey k.serverIv) v1 w1 p1.nodes (h5.sound sv)
    (g5.sound sw) (fresh_inUse _ hk.serverKey.1 (hk.serverKey.2.later h5.later)) (fresh_inUse _ hk.serverKey.1 (hk'.serverKey.2.later g5.later))
    rfl rfl hk.serverIv.1 (hk.serverIv.2.later h5.later) recvRecords recvLenOnline h4 g4
  have hkey : m'.key = m.key := by rw [h8, g8, p2.nodes]
  have hiv : m'.iv = m.iv := by rw [h9, g9, p2.nodes]
  have hkeys : k.session d'.ghashKey = k.session d.ghashKey := by rw [p2.key]
  refine ⟨_, v', _, w', k.session d.ghashKey, m, m', h1, hkeys ▸ g1, by rw [h7, g7, p2.nodes], rfl, rfl, hkey, hiv, ?_, ?_, ?_⟩
  · simpa using g2.masked.otps.1
  · simpa using g2.masked.otps.2
  · intro v'' w'' hlater hn A f SK SIV hin hSK hSIV
    obtain ⟨x1, x2⟩ := (h2.masked.later hlater).value hin hSK hSIV
    have l1 : SK.length = 16 := (readRef_length hSK).trans hk.serverKey.1
    have l2 : SIV.length = 4 := (readRef_length hSIV).trans hk.serverIv.1
    refine ⟨?_, ?_, fun K hK => ?_, fun IV hIV => ?_⟩
    · rw [hkey]; simp only [Vm.value, hn]; exact x1
    · rw [hiv]; simp only [Vm.value, hn]; exact x2
    · have := xorBytes_pad (K := K) (M := xorBytes SK pl.key) (by rw [xorBytes_length, l1, hl.key, hK]; rfl)
      rwa [hK] at this
    · have := xorBytes_pad (K := IV) (M := xorBytes SIV pl.iv) (by rw [xorBytes_length, l2, hl.iv, hIV]; rfl)
      rwa [hIV] at this

/-! ## Any order of calls -/

/-- The calls on the leader's own cipher. -/
inductive LocalCall where
  | setKey (key iv : Ref)
  | alloc (vm : Vm) (keyOtp ivOtp : Bytes)
  | decodeKey
  | finishDecode (recv : Ref → Option Bytes)
  | decrypt (op : DecryptOp)

/-- A call, with what it gave: nothing, or a plaintext. -/
def LocalGcm.step (gcm : Bytes → Bytes → AeadFn) (g : LocalGcm) : LocalCall → LocalGcm × Outcome RlError (Option Bytes)
  | .setKey key iv => (g.setKey key iv, .ok none)
  | .alloc vm ko io => ((g.alloc vm ko io).1, do let _ ← (g.alloc vm ko io).2; .ok none)
  | .decodeKey => (g.decodeKey.1, do let _ ← g.decodeKey.2; .ok none)
  | .finishDecode recv => ((g.finishDecode recv).1, do let _ ← (g.finishDecode recv).2; .ok none)
  | .decrypt op => (g, do let p ← g.decrypt gcm op; .ok (some p))

/-- Any number of calls, with what each gave. -/
def LocalGcm.run (gcm : Bytes → Bytes → AeadFn) : LocalGcm → List LocalCall → LocalGcm × List (LocalCall × Outcome RlError (Option Bytes))
  | g, [] => (g, [])
  | g, c :: cs => ((LocalGcm.run gcm (g.step gcm c).1 cs).1, (c, (g.step gcm c).2) :: (LocalGcm.run gcm (g.step gcm c).1 cs).2)

/-- The leader has its pads, and then its keys. -/
def LocalGcm.Inv (g : LocalGcm) : Prop :=
  match g.state with
  | .alloc m => g.role = .leader → m.keyOtp.isSome ∧ m.ivOtp.isSome
  | .decode m => g.role = .leader → m.keyOtp.isSome ∧ m.ivOtp.isSome
  | .ready key iv => (g.role = .leader → key.isSome ∧ iv.isSome) ∧ (g.role = .follower → key = none ∧ iv = none)
  | _ => True

theorem maskPrivate_no_panic (vm : Vm) (value : Ref) (otp : Bytes) : maskPrivate vm value otp ≠ .panic := by
  simp only [maskPrivate]
  split
  · exact fun h => nomatch h
  · rename_i w hw
    simp only [callOk, Vm.call]
    rw [if_pos (by simp [Vm.alloc, Circ.inLen]; omega)]
    exact fun h => nomatch h

theorem maskBlind_no_panic (vm : Vm) (value : Ref) : maskBlind vm value ≠ .panic := by
  simp only [maskBlind, callOk, Vm.call]
  rw [if_pos (by simp [Vm.alloc, Circ.inLen]; omega)]
  exact fun h => nomatch h

theorem maskKeys_no_panic (role : Role) (vm : Vm) (key iv : Ref) (ko io : Bytes) : maskKeys role vm key iv ko io ≠ .panic := by
  cases role
  · simp only [maskKeys, bind]
    cases h1 : maskPrivate vm key ko with
    | ok k =>
      simp only [Outcome.bind]
      cases h2 : maskPrivate k.1 iv io with
      | ok i => exact fun h => nomatch h
      | err e => exact fun h => nomatch h
      | panic => exact (maskPrivate_no_panic _ _ _ h2).elim
    | err e => exact fun h => nomatch h
    | panic => exact (maskPrivate_no_panic _ _ _ h1).elim
  · simp only [maskKeys, bind]
    cases h1 : maskBlind vm key with
    | ok k =>
      simp only [Outcome.bind]
      cases h2 : maskBlind k.1 iv with
      | ok i => exact fun h => nomatch h
      | err e => exact fun h => nomatch h
      | panic => exact (maskBlind_no_panic _ _ h2).elim
    | err e => exact fun h => nomatch h
    | panic => exact (maskBlind_no_panic _ _ h1).elim

theorem maskKeys_otps {vm vm' : Vm} {key iv : Ref} {ko io : Bytes} {m : Masked} (h : maskKeys .leader vm key iv ko io = .ok (vm', m)) :
    m.keyOtp.isSome ∧ m.ivOtp.isSome := by
  simp only [maskKeys, bind] at h
  cases h1 : maskPrivate vm key ko with
  | ok k =>
    rw [h1] at h
    simp only [Outcome.bind] at h
    cases h2 : maskPrivate k.1 iv io with
    | ok i => rw [h2] at h; cases h; exact ⟨rfl, rfl⟩
    | err e => rw [h2] at h; cases h
    | panic => rw [h2] at h; cases h
  | err e => rw [h1] at h; cases h
  | panic => rw [h1] at h; cases h

/-- What a result of a call may be. -/
def CallOk (role : Role) (c : LocalCall) (o : Outcome RlError (Option Bytes)) : Prop :=
  (o = .panic → role = .leader ∧ ∃ op, c = .decrypt op ∧ (op.nonce.length ≠ 8 ∨ op.tag.length ≠ 16)) ∧
    (role = .follower → ∀ op, c = .decrypt op → o = .err .state)

theorem LocalGcm.step_ok (gcm : Bytes → Bytes → AeadFn) {g : LocalGcm} (h : g.Inv) (c : LocalCall) :
    (g.step gcm c).1.Inv ∧ (g.step gcm c).1.role = g.role ∧ CallOk g.role c (g.step gcm c).2 := by
  obtain ⟨role, key, iv, state⟩ := g
  cases c with
  | setKey k i => exact ⟨by revert h; cases state <;> exact id, rfl, (fun h => nomatch h), (fun _ _ h => nomatch h)⟩
  | alloc vm ko io =>
    cases state with
    | init =>
      cases key with
      | none => exact ⟨trivial, rfl, (fun h => nomatch h), (fun _ _ h => nomatch h)⟩
      | some key =>
        cases iv with
        | none => exact ⟨trivial, rfl, (fun h => nomatch h), (fun _ _ h => nomatch h)⟩
        | some iv =>
          cases hm : maskKeys role vm key iv ko io with
          | ok r =>
            obtain ⟨vm', m⟩ := r
            simp only [LocalGcm.step, LocalGcm.alloc, hm]
            refine ⟨fun hr => ?_, trivial, (fun h => nomatch h), (fun _ _ h => nomatch h)⟩
            simp only at hr
            subst hr
            exact maskKeys_otps hm
          | err e =>
            simp only [LocalGcm.step, LocalGcm.alloc, hm]
            exact ⟨trivial, trivial, (fun h => nomatch h), (fun _ _ h => nomatch h)⟩
          | panic => exact (maskKeys_no_panic _ _ _ _ _ _ hm).elim
    | _ => exact ⟨trivial, rfl, (fun h => nomatch h), (fun _ _ h => nomatch h)⟩
  | decodeKey =>
    cases state with
    | alloc m => exact ⟨h, rfl, (fun h => nomatch h), (fun _ _ h => nomatch h)⟩
    | _ => exact ⟨trivial, rfl, (fun h => nomatch h), (fun _ _ h => nomatch h)⟩
  | finishDecode recv =>
    cases state with
    | decode m =>
      cases role with
      | follower => exact ⟨⟨(fun h => nomatch h), fun _ => ⟨rfl, rfl⟩⟩, rfl, (fun h => nomatch h), (fun _ _ h => nomatch h)⟩
      | leader =>
        obtain ⟨mk, mi, ko, io⟩ := m
        obtain ⟨h1, h2⟩ := h rfl
        obtain ⟨ko, rfl⟩ := Option.isSome_iff_exists.1 h1
        obtain ⟨io, rfl⟩ := Option.isSome_iff_exists.1 h2
        simp only [LocalGcm.step, LocalGcm.finishDecode]
        cases recv mk with
        | none => exact ⟨trivial, rfl, (fun h => nomatch h), (fun _ _ h => nomatch h)⟩
        | some a =>
          cases recv mi with
          | none => exact ⟨trivial, rfl, (fun h => nomatch h), (fun _ _ h => nomatch h)⟩
          | some b => exact ⟨⟨fun _ => ⟨rfl, rfl⟩, (fun h => nomatch h)⟩, rfl, (fun h => nomatch h), (fun _ _ h => nomatch h)⟩
    | _ => exact ⟨trivial, rfl, (fun h => nomatch h), (fun _ _ h => nomatch h)⟩
  | decrypt op =>
    refine ⟨h, rfl, ?_⟩
    cases state with
    | ready k i =>
      cases role with
      | follower => exact ⟨(fun h => nomatch h), fun _ _ _ => rfl⟩
      | leader =>
        obtain ⟨h1, h2⟩ := h.1 rfl
        obtain ⟨k, rfl⟩ := Option.isSome_iff_exists.1 h1
        obtain ⟨i, rfl⟩ := Option.isSome_iff_exists.1 h2
        refine ⟨fun hp => ⟨rfl, op, rfl, ?_⟩, fun h => nomatch h⟩
        by_cases hc : op.nonce.length ≠ 8 ∨ op.tag.length ≠ 16
        · exact hc
        · exfalso
          simp only [LocalGcm.step, LocalGcm.decrypt, localDecrypt, bind] at hp
          rw [if_neg hc] at hp
          split at hp <;> cases hp
    | _ => exact ⟨(fun h => nomatch h), fun _ _ _ => rfl⟩

theorem LocalGcm.run_ok (gcm : Bytes → Bytes → AeadFn) : ∀ (cs : List LocalCall) (g : LocalGcm), g.Inv →
    ∀ x ∈ (g.run gcm cs).2, CallOk g.role x.1 x.2
  | [], _, _, _, hx => nomatch hx
  | c :: cs, g, h, x, hx => by
    obtain ⟨h1, h2, h3⟩ := LocalGcm.step_ok gcm h c
    simp only [LocalGcm.run, List.mem_cons] at hx
    rcases hx with rfl | hx
    · exact h3
    · have := LocalGcm.run_ok gcm cs _ h1 x hx
      rwa [h2] at this

/-- C127: whatever is called on that cipher, in any order, with any machine and whatever is decoded, no call panics except the leader's
decryption of a record whose nonce has not 8 bytes or whose tag has not 16, and the follower never decrypts anything. -/
theorem C127_any_order (gcm : Bytes → Bytes → AeadFn) (role : Role) (calls : List LocalCall) :
    ∀ x ∈ ((Ciphers.new role).aesGcm.run gcm calls).2,
      (x.2 = .panic → role = .leader ∧ ∃ op, x.1 = .decrypt op ∧ (op.nonce.length ≠ 8 ∨ op.tag.length ≠ 16)) ∧
      (role = .follower → ∀ op, x.1 = .decrypt op → x.2 = .err .state) := fun x hx =>
  LocalGcm.run_ok gcm calls (Ciphers.new role).aesGcm trivial x hx

/-! ## Examples -/

/-- The keys of the PRF: the client's key, the server's, and their IVs. -/
def toyPrf : PrfKeys := ⟨⟨0, 16⟩, ⟨16, 16⟩, ⟨32, 4⟩, ⟨36, 4⟩⟩

/-- A machine with those keys, with different values. -/
def toyVm2 : Vm :=
  { nodes := [.input 16, .input 16, .input 4, .input 4]
    marks := [(⟨0, 16⟩, .pub), (⟨16, 16⟩, .pub), (⟨32, 4⟩, .pub), (⟨36, 4⟩, .pub)]
    assigned := fun a => if a < 16 then some (3 * UInt8.ofNat a) else if a < 32 then some (5 * UInt8.ofNat a) else if a < 36 then some 9
      else if a < 40 then some 11 else none }

theorem toySound2 : Sound toyVm2 :=
  ⟨fun a ha => by
    have : sizeOf toyVm2.nodes = 40 := by decide
    simp only [toyVm2]
    rw [if_neg (by omega), if_neg (by omega), if_neg (by omega), if_neg (by omega)], by
    intro m hm
    simp only [toyVm2, List.mem_cons, List.not_mem_nil, or_false] at hm
    rcases hm with rfl | rfl | rfl | rfl <;> (simp only [InRange]; decide)⟩

theorem toyPrfOk : toyPrf.Ok toyVm2 := by
  refine ⟨⟨rfl, ?_⟩, ⟨rfl, ?_⟩, ⟨rfl, ?_⟩, ⟨rfl, ?_⟩⟩ <;> (simp only [InRange]; decide)

def toyPads (b : Byte) : Pads :=
  ⟨List.replicate 16 b, fun _ => List.replicate 16 (b + 1), List.replicate 16 (b + 2), fun _ => List.replicate 16 (b + 3),
    List.replicate 16 (b + 4), List.replicate 4 (b + 5)⟩

theorem toyPadsOk (b : Byte) : (toyPads b).Ok := ⟨rfl, fun _ => rfl, rfl, fun _ => rfl, rfl, rfl⟩

/-- The hypotheses of C126 and C127 are met. -/
example := C126_directions (role := .leader) (toyPadsOk 7) toySound2 toyPrfOk 2 2 40 40
example := C127_leader_has_server_key (toyPadsOk 7) toySound2 toyPrfOk 2 2 40 40
example := C127_follower_learns_nothing (toyPadsOk 7) (toyPadsOk 77) rfl toySound2 toySound2 toyPrfOk 2 2 40 40

def toyCK : Bytes := (List.range 16).map fun i => 3 * UInt8.ofNat i
def toySK : Bytes := (List.range 16).map fun i => 5 * UInt8.ofNat (16 + i)

/-- Both ciphers, used in turn. -/
def toyBoth (role : Role) (b : Byte) : Option (Ciphers × Keys × Vm × List GcmOut) :=
  match allocKeys (.new role) (toyPads b) toyVm2 toyPrf 2 2 40 40 with
  | (c, .ok (vm, keys)) =>
    match c.encrypter.state, c.decrypter.state with
    | .setup e, .setup d =>
      let r := runBoth role [(true, .take toyNonce 5), (false, .take toyNonce 5), (true, .take toyNonce 4), (false, .apply [1] 2)] e d vm
      some (c, keys, r.2.2)
    | _, _ => none
  | _ => none

/-- C126: what is taken from the encrypter and from the decrypter, and the server write MAC key. -/
example : (toyBoth .leader 7).map (fun r => (r.2.2.1.value toy (toyIn r.2.2.1) r.2.1.serverWriteMacKey, r.2.2.2.map fun o => match o with
    | .taken o => r.2.2.1.value toy (toyIn r.2.2.1) o
    | _ => none)) =
    some (some (toy.aes toySK (List.replicate 16 0)).toList, [some ((ctrMode toy.aes toyCK [9, 9, 9, 9]).keystream toyNonce 5),
      some ((ctrMode toy.aes toySK [11, 11, 11, 11]).keystream toyNonce 5),
      some ((ctrMode toy.aes toyCK [9, 9, 9, 9]).keystream toyNonce 4), none]) := by decide +kernel

/-- C127: the leader obtains the server's key and IV at that time, the follower nothing. -/
example : (toyBoth .leader 7).map (fun r => (r.1.aesGcm.decodeKey.1.finishDecode (r.2.2.1.value toy (toyIn r.2.2.1))).1.state) =
    some (.ready (some toySK) (some [11, 11, 11, 11])) := by decide +kernel
example : (toyBoth .follower 77).map (fun r => (r.1.aesGcm.decodeKey.1.finishDecode (r.2.2.1.value toy (toyIn r.2.2.1))).1.state) =
    some (.ready none none) := by decide +kernel

/-- What is decoded is not the key. -/
example : (toyBoth .leader 7).map (fun r => match r.1.aesGcm.state with
    | .alloc m => r.2.2.1.value toy (toyIn r.2.2.1) m.key
    | _ => none) = some (some (xorBytes toySK (List.replicate 16 11))) ∧ xorBytes toySK (List.replicate 16 11) ≠ toySK := by decide +kernel

/-- C127: calls in the wrong order. -/
example : ((Ciphers.new .leader).aesGcm.run (fun _ _ => ctrMode toy.aes toyCK [9, 9, 9, 9]) [.decodeKey, .setKey ⟨16, 16⟩ ⟨36, 4⟩,
    .alloc toyVm2 [] [], .finishDecode fun _ => none]).2.map (·.2) = [.err .state, .ok none, .err .state, .err .state] := by decide +kernel

end Tlsn.Gcm
