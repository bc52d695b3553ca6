import Verif.Gcm.Props

/-!
# The keys of the record layer

`crates/mpc-tls/src/record_layer/aes_gcm.rs`, and how `record_layer.rs` and `utils.rs` hand the session keys to the three ciphers of
the record layer.  Locks are always free here.
-/

namespace Tlsn.Gcm

/-! ## The leader's own cipher -/

/-- crates/mpc-tls/src/record_layer/aes_gcm.rs:14-19 and 20-25: the masked key and IV with the pads, if the party has drawn them. -/
structure Masked where
  key : Ref
  iv : Ref
  keyOtp : Option Bytes
  ivOtp : Option Bytes
deriving DecidableEq, Repr

/-- crates/mpc-tls/src/record_layer/aes_gcm.rs:12-31 `State` -/
inductive LocalState where
  | init
  | alloc (m : Masked)
  | decode (m : Masked)
  | ready (key iv : Option Bytes)
  | error
deriving DecidableEq, Repr

/-- crates/mpc-tls/src/record_layer/aes_gcm.rs:39-44 `AesGcm` -/
structure LocalGcm where
  role : Role
  key : Option Ref := none
  iv : Option Ref := none
  state : LocalState := .init
deriving DecidableEq, Repr

/-- crates/mpc-tls/src/record_layer/aes_gcm.rs:56-59 `set_key` -/
def LocalGcm.setKey (g : LocalGcm) (key iv : Ref) : LocalGcm := { g with key := some key, iv := some iv }

/-- crates/mpc-tls/src/record_layer/aes_gcm.rs:74-95: masks the key and the IV, with the pads that the leader draws. -/
def maskKeys (role : Role) (vm : Vm) (key iv : Ref) (keyOtp ivOtp : Bytes) : Outcome CipherError (Vm × Masked) :=
  match role with
  | .leader => do
    let k ← maskPrivate vm key keyOtp
    let i ← maskPrivate k.1 iv ivOtp
    .ok (i.1, ⟨k.2, i.2, some keyOtp, some ivOtp⟩)
  | .follower => do
    let k ← maskBlind vm key
    let i ← maskBlind k.1 iv
    .ok (i.1, ⟨k.2, i.2, none, none⟩)

/-- crates/mpc-tls/src/record_layer/aes_gcm.rs:61-105 `alloc`.  What an error leaves in the machine is not modelled. -/
def LocalGcm.alloc (g : LocalGcm) (vm : Vm) (keyOtp ivOtp : Bytes) : LocalGcm × Outcome RlError Vm :=
  match g.state with
  | .init =>
    match g.key, g.iv with
    | some key, some iv =>
      match maskKeys g.role vm key iv keyOtp ivOtp with
      | .ok (vm, m) => ({ g with state := .alloc m }, .ok vm)
      | .err _ => ({ g with state := .error }, .err .cipher)
      | .panic => ({ g with state := .error }, .panic)
    | _, _ => ({ g with state := .error }, .err .cipher)
  | _ => ({ g with state := .error }, .err .state)

/-- crates/mpc-tls/src/record_layer/aes_gcm.rs:107-131 `decode_key`.  Asking the machine to decode does not fail here. -/
def LocalGcm.decodeKey (g : LocalGcm) : LocalGcm × Outcome RlError Unit :=
  match g.state with
  | .alloc m => ({ g with state := .decode m }, .ok ())
  | _ => ({ g with state := .error }, .err .state)

/-- crates/mpc-tls/src/record_layer/aes_gcm.rs:135-179 `finish_decode`.  `recv` is what the machine has decoded. -/
def LocalGcm.finishDecode (g : LocalGcm) (recv : Ref → Option Bytes) : LocalGcm × Outcome RlError Unit :=
  match g.state with
  | .decode m =>
    match g.role with
    | .leader =>
      match m.keyOtp, m.ivOtp with
      | some keyOtp, some ivOtp =>
        match recv m.key, recv m.iv with
        | some key, some iv => ({ g with state := .ready (some (xorBytes key keyOtp)) (some (xorBytes iv ivOtp)) }, .ok ())
        | _, _ => ({ g with state := .error }, .err .mpc)
      | _, _ => ({ g with state := .error }, .panic)
    | .follower => ({ g with state := .ready none none }, .ok ())
  | _ => ({ g with state := .error }, .err .state)

/-- crates/mpc-tls/src/record_layer/aes_gcm.rs:181-219 `decrypt`; `gcm` is AES-GCM of the crate `aes_gcm` under a key and an IV. -/
def LocalGcm.decrypt (gcm : Bytes → Bytes → AeadFn) (g : LocalGcm) (op : DecryptOp) : Outcome RlError Bytes :=
  match g.state with
  | .ready key iv =>
    match g.role with
    | .follower => .err .state
    | .leader =>
      match key, iv with
      | some key, some iv => localDecrypt (gcm key iv) op
      | _, _ => .panic
  | _ => .err .state

/-! ## The record layer -/

/-- crates/mpc-tls/src/record_layer/aead/aes_gcm.rs:29-49 `State`, without `setup`, after which the resources are the same. -/
inductive MpcState where
  | init
  | setup (g : Gcm)
  | error

/-- crates/mpc-tls/src/record_layer/aead/aes_gcm.rs:57-61 `MpcAesGcm` -/
structure MpcGcm where
  aes : Aes128 := {}
  state : MpcState := .init

/-- crates/mpc-tls/src/record_layer/aead/aes_gcm.rs:84-142 `alloc`, with the pads `otp` and `otps`. -/
def MpcGcm.alloc (role : Role) (otp : Bytes) (otps : Nat → Bytes) (g : MpcGcm) (vm : Vm) (records len : Nat) :
    MpcGcm × Outcome RlError Vm :=
  match g.state with
  | .init =>
    match Gcm.alloc role otp otps g.aes vm records len with
    | .ok (aes, vm, g) => (⟨aes, .setup g⟩, .ok vm)
    | .err _ => ({ g with state := .error }, .err .cipher)
    | .panic => ({ g with state := .error }, .panic)
  | _ => ({ g with state := .error }, .err .state)

/-- crates/mpc-tls/src/record_layer/aead/aes_gcm.rs:311-323 `ghash_key` -/
def MpcGcm.ghashKey (g : MpcGcm) : Outcome RlError Ref :=
  match g.state with
  | .setup g => .ok g.ghashKey
  | _ => .err .state

/-- crates/mpc-tls/src/record_layer.rs:73-100 `RecordLayer`: its ciphers, and whether it is in the initial state. -/
structure Ciphers where
  role : Role
  encrypter : MpcGcm
  decrypter : MpcGcm
  aesGcm : LocalGcm
  init : Bool

/-- crates/mpc-tls/src/record_layer.rs:104-125 `new` -/
def Ciphers.new (role : Role) : Ciphers := ⟨role, {}, {}, { role }, true⟩

/-- crates/mpc-tls/src/record_layer.rs:220-243 `set_keys` -/
def Ciphers.setKeys (c : Ciphers) (clientWriteKey clientIv serverWriteKey serverIv : Ref) : Ciphers :=
  { c with
    encrypter := { c.encrypter with aes := (c.encrypter.aes.setKey clientWriteKey).setIv clientIv }
    decrypter := { c.decrypter with aes := (c.decrypter.aes.setKey serverWriteKey).setIv serverIv }
    aesGcm := c.aesGcm.setKey serverWriteKey serverIv }

/-- The pads that a party draws. -/
structure Pads where
  encKey : Bytes
  encTags : Nat → Bytes
  decKey : Bytes
  decTags : Nat → Bytes
  key : Bytes
  iv : Bytes

/-- crates/mpc-tls/src/record_layer.rs:139-192 `alloc`: the machine and the server write MAC key.  The limits and the pad for received
data are in the other model of the record layer. -/
def Ciphers.alloc (c : Ciphers) (p : Pads) (vm : Vm) (sentRecords recvRecords sentLen recvLenOnline : Nat) :
    Ciphers × Outcome RlError (Vm × Ref) :=
  if c.init then
    match c.encrypter.alloc c.role p.encKey p.encTags vm sentRecords sentLen with
    | (e, .ok vm) =>
      match c.decrypter.alloc c.role p.decKey p.decTags vm recvRecords recvLenOnline with
      | (d, .ok vm) =>
        match c.aesGcm.alloc vm p.key p.iv with
        | (l, .ok vm) =>
          (⟨c.role, e, d, l, false⟩, match d.ghashKey with
            | .ok key => .ok (vm, key)
            | .err e => .err e
            | .panic => .panic)
        | (l, .err x) => (⟨c.role, e, d, l, false⟩, .err x)
        | (l, .panic) => (⟨c.role, e, d, l, false⟩, .panic)
      | (d, .err x) => (⟨c.role, e, d, c.aesGcm, false⟩, .err x)
      | (d, .panic) => (⟨c.role, e, d, c.aesGcm, false⟩, .panic)
    | (e, .err x) => (⟨c.role, e, c.decrypter, c.aesGcm, false⟩, .err x)
    | (e, .panic) => (⟨c.role, e, c.decrypter, c.aesGcm, false⟩, .panic)
  else ({ c with init := false }, .err .state)

/-- The keys that the PRF gives, crates/components/hmac-sha256/src/lib.rs:35-44 `SessionKeys`. -/
structure PrfKeys where
  clientWriteKey : Ref
  serverWriteKey : Ref
  clientIv : Ref
  serverIv : Ref
deriving DecidableEq, Repr

/-- crates/mpc-tls/src/lib.rs:43-54 `SessionKeys` -/
structure Keys where
  clientWriteKey : Ref
  clientWriteIv : Ref
  serverWriteKey : Ref
  serverWriteIv : Ref
  serverWriteMacKey : Ref
deriving DecidableEq, Repr

/-- crates/mpc-tls/src/utils.rs:60-88: the part of `alloc_session` after the PRF. -/
def allocKeys (c : Ciphers) (p : Pads) (vm : Vm) (keys : PrfKeys) (sentRecords recvRecords sentLen recvLenOnline : Nat) :
    Ciphers × Outcome RlError (Vm × Keys) :=
  let c := c.setKeys keys.clientWriteKey keys.clientIv keys.serverWriteKey keys.serverIv
  match c.alloc p vm sentRecords recvRecords sentLen recvLenOnline with
  | (c, .ok (vm, macKey)) =>
    (c, .ok (vm, {
      clientWriteKey := keys.clientWriteKey
      clientWriteIv := keys.clientIv
      serverWriteKey := keys.serverWriteKey
      serverWriteIv := keys.serverIv
      serverWriteMacKey := macKey }))
  | (c, .err e) => (c, .err e)
  | (c, .panic) => (c, .panic)

/-! ## Specification -/

/-- The keys of the PRF are parts of the memory, of the right lengths. -/
structure PrfKeys.Ok (k : PrfKeys) (vm : Vm) : Prop where
  clientKey : k.clientWriteKey.len = 16 ∧ InRange vm k.clientWriteKey
  serverKey : k.serverWriteKey.len = 16 ∧ InRange vm k.serverWriteKey
  clientIv : k.clientIv.len = 4 ∧ InRange vm k.clientIv
  serverIv : k.serverIv.len = 4 ∧ InRange vm k.serverIv

/-- The pads have the lengths of what they mask. -/
structure Pads.Ok (p : Pads) : Prop where
  encKey : p.encKey.length = 16
  encTags : ∀ n, (p.encTags n).length = 16
  decKey : p.decKey.length = 16
  decTags : ∀ n, (p.decTags n).length = 16
  key : p.key.length = 16
  iv : p.iv.length = 4

/-- Uses of both ciphers in any order, `true` for the encrypter, with what each gave. -/
def runBoth (role : Role) : List (Bool × GcmOp) → Gcm → Gcm → Vm → Gcm × Gcm × Vm × List GcmOut
  | [], e, d, vm => (e, d, vm, [])
  | (true, op) :: ops, e, d, vm =>
    let r := op.run role e vm
    let s := runBoth role ops r.1 d r.2.1
    (s.1, s.2.1, s.2.2.1, r.2.2 :: s.2.2.2)
  | (false, op) :: ops, e, d, vm =>
    let r := op.run role d vm
    let s := runBoth role ops e r.1 r.2.1
    (s.1, s.2.1, s.2.2.1, r.2.2 :: s.2.2.2)

/-! ## Lemmas -/

theorem runBoth_ok {role : Role} {ck civ sk siv : Ref} (ops : List (Bool × GcmOp)) {e d : Gcm} {vm : Vm} (he : GcmOk role ck civ vm e)
    (hd : GcmOk role sk siv vm d) :
    Later vm (runBoth role ops e d vm).2.2.1 ∧ (runBoth role ops e d vm).2.2.2.length = ops.length ∧
      ∀ x ∈ ops.zip (runBoth role ops e d vm).2.2.2,
        (x.1.1 = true → OutOk role ck civ (runBoth role ops e d vm).2.2.1 x.1.2 x.2) ∧
        (x.1.1 = false → OutOk role sk siv (runBoth role ops e d vm).2.2.1 x.1.2 x.2) := by
  induction ops generalizing e d vm with
  | nil => exact ⟨.refl _, rfl, fun _ h => nomatch h⟩
  | cons o ops ih =>
    obtain ⟨b, op⟩ := o
    cases b with
    | true =>
      obtain ⟨h1, h2, h3⟩ := run_ok op he
      obtain ⟨i1, i2, i3⟩ := ih h2 (hd.later h1)
      refine ⟨h1.trans i1, by simp [runBoth, i2], fun x hx => ?_⟩
      simp only [runBoth, List.zip_cons_cons] at hx ⊢
      rcases List.mem_cons.1 hx with rfl | hx
      · exact ⟨fun _ => h3.later i1, (fun h => nomatch h)⟩
      · exact i3 x hx
    | false =>
      obtain ⟨h1, h2, h3⟩ := run_ok op hd
      obtain ⟨i1, i2, i3⟩ := ih (he.later h1) h2
      refine ⟨h1.trans i1, by simp [runBoth, i2], fun x hx => ?_⟩
      simp only [runBoth, List.zip_cons_cons] at hx ⊢
      rcases List.mem_cons.1 hx with rfl | hx
      · exact ⟨(fun h => nomatch h), fun _ => h3.later i1⟩
      · exact i3 x hx

/-- The graph of the masked key. -/
structure MaskedOk (vm : Vm) (role : Role) (key iv : Ref) (keyOtp ivOtp : Bytes) (m : Masked) : Prop where
  key : ∃ p, Has vm.nodes (.xor key.len) [key, p] m.key ∧ IsInput vm.nodes p ∧ (role = .leader → Holds vm p keyOtp)
  iv : ∃ p, Has vm.nodes (.xor iv.len) [iv, p] m.iv ∧ IsInput vm.nodes p ∧ (role = .leader → Holds vm p ivOtp)
  otps : m.keyOtp = (if role = .leader then some keyOtp else none) ∧ m.ivOtp = if role = .leader then some ivOtp else none

theorem MaskedOk.later {a b : Vm} (h : Later a b) {role : Role} {key iv : Ref} {ko io : Bytes} {m : Masked}
    (hx : MaskedOk a role key iv ko io m) : MaskedOk b role key iv ko io m := by
  obtain ⟨⟨p, h1, h2, h3⟩, ⟨q, g1, g2, g3⟩, ho⟩ := hx
  exact ⟨⟨p, h1.later h, h2.later h, fun hr => (h3 hr).later h⟩, ⟨q, g1.later h, g2.later h, fun hr => (g3 hr).later h⟩, ho⟩

/-- The pieces of memory that the masks add. -/
def maskNodes (size : Nat) (key iv : Ref) : List Node :=
  [.input key.len, .call (.xor key.len) [key, ⟨size, key.len⟩], .input iv.len,
    .call (.xor iv.len) [iv, ⟨size + key.len + key.len, iv.len⟩]]

theorem maskKeys_spec {role : Role} {vm : Vm} (hs : Sound vm) {key iv : Ref} {keyOtp ivOtp : Bytes} (hk : 0 < key.len) (hkr : InRange vm key)
    (hi : 0 < iv.len) (hir : InRange vm iv) (hko : keyOtp.length = key.len) (hio : ivOtp.length = iv.len) :
    ∃ vm' m, maskKeys role vm key iv keyOtp ivOtp = .ok (vm', m) ∧ Grow vm vm' ∧ MaskedOk vm' role key iv keyOtp ivOtp m ∧
      vm'.nodes = vm.nodes ++ maskNodes (sizeOf vm.nodes) key iv ∧ m.key = ⟨sizeOf vm.nodes + key.len, key.len⟩ ∧
      m.iv = ⟨sizeOf vm.nodes + key.len + key.len + iv.len, iv.len⟩ := by
  cases role with
  | leader =>
    obtain ⟨v1, o1, p1, a1, a2, a3, a4, a5, a6, a7, a8⟩ := maskPrivate_spec hs hk hkr hko
    obtain ⟨v2, o2, p2, b1, b2, b3, b4, b5, b6, b7, b8⟩ := maskPrivate_spec (a2.sound hs) hi (hir.later a2.later) hio
    have hz : sizeOf v1.nodes = sizeOf vm.nodes + key.len + key.len := by rw [a7, sizeOf_append]; simp [sizeOf, Node.len, Circ.outLen]; omega
    refine ⟨v2, ⟨o1, o2, some keyOtp, some ivOtp⟩, by simp only [maskKeys, a1, b1, bind, Outcome.bind], a2.trans b2,
      ⟨⟨p1, a3.later b2.later, a4.later b2.later, fun _ => a5.later b2.later⟩, ⟨p2, b3, b4, fun _ => b5⟩, ⟨rfl, rfl⟩⟩, ?_, ?_, ?_⟩
    · rw [b7, hz, a7]; simp [maskNodes]
    · cases o1; simp only at a6 a8; rw [a6, a8]
    · cases o2; simp only at b6 b8; rw [b6, b8, hz]
  | follower =>
    obtain ⟨v1, o1, p1, a1, a2, a3, a4, a6, a7, a8⟩ := maskBlind_spec (vm := vm) hk hkr
    obtain ⟨v2, o2, p2, b1, b2, b3, b4, b6, b7, b8⟩ := maskBlind_spec (vm := v1) hi (hir.later a2.later)
    have hz : sizeOf v1.nodes = sizeOf vm.nodes + key.len + key.len := by rw [a7, sizeOf_append]; simp [sizeOf, Node.len, Circ.outLen]; omega
    refine ⟨v2, ⟨o1, o2, none, none⟩, by simp only [maskKeys, a1, b1, bind, Outcome.bind], a2.trans b2,
      ⟨⟨p1, a3.later b2.later, a4.later b2.later, (fun h => nomatch h)⟩, ⟨p2, b3, b4, (fun h => nomatch h)⟩, ⟨rfl, rfl⟩⟩, ?_, ?_, ?_⟩
    · rw [b7, hz, a7]; simp [maskNodes]
    · cases o1; simp only at a6 a8; rw [a6, a8]
    · cases o2; simp only at b6 b8; rw [b6, b8, hz]

/-- What the allocation gives. -/
structure Allocated (role : Role) (p : Pads) (k : PrfKeys) (vm vm' : Vm) (e d : Gcm) (m : Masked) : Prop where
  later : Later vm vm'
  enc : GcmOk role k.clientWriteKey k.clientIv vm' e
  dec : GcmOk role k.serverWriteKey k.serverIv vm' d
  mac : HKeyOk role k.serverWriteKey vm' d
  encMac : HKeyOk role k.clientWriteKey vm' e
  masked : MaskedOk vm' role k.serverWriteKey k.serverIv p.key p.iv m

/-- The ciphers after the allocation. -/
def Ciphers.ready (role : Role) (k : PrfKeys) (e d : Gcm) (ae ad : Aes128) (m : Masked) : Ciphers :=
  ⟨role, ⟨ae, .setup e⟩, ⟨ad, .setup d⟩, ⟨role, some k.serverWriteKey, some k.serverIv, .alloc m⟩, false⟩

/-- The references of the session keys. -/
def PrfKeys.session (k : PrfKeys) (mac : Ref) : Keys := ⟨k.clientWriteKey, k.clientIv, k.serverWriteKey, k.serverIv, mac⟩

theorem allocKeys_spec {role : Role} {p : Pads} (hp : p.Ok) {vm : Vm} (hs : Sound vm) {k : PrfKeys} (hk : k.Ok vm) (a b c' d' : Nat) :
    ∃ vm1 vm2 vm' e d ae ad m,
      allocKeys (.new role) p vm k a b c' d' = (.ready role k e d ae ad m, .ok (vm', k.session d.ghashKey)) ∧
      Allocated role p k vm vm' e d m ∧
      Gcm.alloc role p.encKey p.encTags (fresh k.clientWriteKey k.clientIv) vm a c' = .ok (ae, vm1, e) ∧
      Gcm.alloc role p.decKey p.decTags (fresh k.serverWriteKey k.serverIv) vm1 b d' = .ok (ad, vm2, d) ∧ Grow vm vm1 ∧ Grow vm1 vm2 ∧
      vm'.nodes = vm2.nodes ++ maskNodes (sizeOf vm2.nodes) k.serverWriteKey k.serverIv ∧
      m.key = ⟨sizeOf vm2.nodes + 16, 16⟩ ∧ m.iv = ⟨sizeOf vm2.nodes + 16 + 16 + 4, 4⟩ := by
  obtain ⟨ae, vm1, e, h1, h2⟩ := alloc_ok (role := role) hp.encKey hp.encTags hs hk.clientKey.1 hk.clientKey.2 hk.clientIv.1 hk.clientIv.2 a c'
  obtain ⟨ad, vm2, d, g1, g2⟩ := alloc_ok (role := role) hp.decKey hp.decTags h2.ready.sound hk.serverKey.1 (hk.serverKey.2.later h2.grow.later)
    hk.serverIv.1 (hk.serverIv.2.later h2.grow.later) b d'
  obtain ⟨vm3, m, m1, m2, m3, m4, m5, m6⟩ := maskKeys_spec (role := role) (keyOtp := p.key) (ivOtp := p.iv) g2.ready.sound
    (key := k.serverWriteKey) (iv := k.serverIv) (by rw [hk.serverKey.1]; decide)
    (hk.serverKey.2.later (h2.grow.later.trans g2.grow.later)) (by rw [hk.serverIv.1]; decide)
    (hk.serverIv.2.later (h2.grow.later.trans g2.grow.later)) (hp.key.trans hk.serverKey.1.symm) (hp.iv.trans hk.serverIv.1.symm)
  rw [hk.serverKey.1] at m5
  rw [hk.serverKey.1, hk.serverIv.1] at m6
  have h1' : Gcm.alloc role p.encKey p.encTags ((({} : Aes128).setKey k.clientWriteKey).setIv k.clientIv) vm a c' = .ok (ae, vm1, e) := h1
  have g1' : Gcm.alloc role p.decKey p.decTags ((({} : Aes128).setKey k.serverWriteKey).setIv k.serverIv) vm1 b d' = .ok (ad, vm2, d) := g1
  refine ⟨vm1, vm2, vm3, e, d, ae, ad, m, ?_, ⟨(h2.grow.later.trans g2.grow.later).trans m2.later,
    h2.ok.later (g2.grow.later.trans m2.later), g2.ok.later m2.later, g2.hkey.later m2.later, h2.hkey.later (g2.grow.later.trans m2.later), m3⟩,
    h1, g1, h2.grow, g2.grow, m4, m5, m6⟩
  simp only [allocKeys, Ciphers.setKeys, Ciphers.new, Ciphers.alloc, MpcGcm.alloc, h1', g1', LocalGcm.alloc, LocalGcm.setKey, m1,
    MpcGcm.ghashKey, Ciphers.ready, PrfKeys.session, if_true]

end Tlsn.Gcm
