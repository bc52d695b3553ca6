import Verif.KeyExchange.P256
import Verif.KeyExchange.Circuit
import Verif.Prf.Vm

/-!
# The key exchange

Model of crates/components/key-exchange/src/point_addition.rs and crates/components/key-exchange/src/exchange.rs.

The crates `p256`, `mpz_fields` (arithmetic), `mpz_share_conversion` and the virtual machine are outside the repository.
Points are those of Mathlib, scalars are numbers, the share conversion is a parameter `Conv` that computes the outputs of
both parties from the inputs of both, and the machine is the ideal one of `Verif.Prf.Vm`.
-/

namespace Tlsn.Kex

open Hmac (VecRef Ref Vm)

/-- crates/components/key-exchange/src/error.rs:8-25 `ErrorRepr`; `io` also stands for errors of the context. -/
inductive KxError where
  | state
  | io
  | vm
  | shareConversion
  | role
  | key
  deriving DecidableEq, Repr

/-- crates/components/key-exchange/src/lib.rs:41-46 `Role`. -/
inductive Role where
  | leader
  | follower
  deriving DecidableEq, Repr

/-! ## point_addition.rs -/

/-- `p256::EncodedPoint` with its accessors `x()` and `y()`: big-endian coordinates, if it has them. -/
structure EncodedPoint where
  x : Option Bytes
  y : Option Bytes

/-- `P256::to_be_bytes`. -/
def fpBytes (x : Fp) : Bytes := beBytes 32 x.val

/-- `EncodedPoint::from(PublicKey)`: both coordinates, the points of P-256 are not compressed by default. -/
def encodePoint : Point → EncodedPoint
  | .zero => ⟨none, none⟩
  | .some x y _ => ⟨some (fpBytes x), some (fpBytes y)⟩

/-- `P256::try_from([u8; 32])`: little-endian, below the prime. -/
def fpOfLe (b : Bytes) : Option Fp := if beNat b.reverse < p256 then some (beNat b.reverse : Fp) else none

/-- crates/components/key-exchange/src/point_addition.rs:75-96 `decompose_point`. -/
def decomposePoint (e : EncodedPoint) : Outcome KxError (Fp × Fp) :=
  match e.x with
  | none => .err .key
  | some x =>
    match e.y with
    | none => .err .key
    | some y =>
      -- Reverse to little endian; `P256::try_from(x).unwrap()`.
      match fpOfLe x.reverse, fpOfLe y.reverse with
      | some x, some y => .ok (x, y)
      | _, _ => .panic

/-- crates/components/key-exchange/src/point_addition.rs:26-32: the x coordinate, and the inputs of the first conversion. -/
def xShareStart (role : Role) (e : EncodedPoint) : Outcome KxError (Fp × List Fp) :=
  decomposePoint e >>= fun (x, y) =>
    .ok (x, match role with
      | .leader => [y, x]
      | .follower => [-y, -x])

/-- crates/components/key-exchange/src/point_addition.rs:43-53: from the shares of the first conversion to the input of the second. -/
def xShareMid (shares : List Fp) : Outcome KxError Fp :=
  match shares with
  | [a, b] =>
    -- `b.inverse().expect(..)`
    if b = 0 then .panic
    else
      let c := a * b⁻¹
      .ok (c * c)
  | _ => .panic

/-- crates/components/key-exchange/src/point_addition.rs:64-71: the share of the x coordinate. -/
def xShareEnd (x : Fp) (shares : List Fp) : Outcome KxError Fp :=
  match shares with
  | d :: _ => .ok (d + -x)
  | [] => .panic

/-- A share conversion between the two parties: the outputs of both, or none if it fails. -/
structure Conv where
  toMultiplicative : List Fp → List Fp → Option (List Fp × List Fp)
  toAdditive : List Fp → List Fp → Option (List Fp × List Fp)

/-- What a party gets when it is well itself but its peer has stopped. -/
def orLost {α β : Type} : Outcome KxError α → Outcome KxError β
  | .ok _ => .err .shareConversion
  | .err e => .err e
  | .panic => .panic

/-- crates/components/key-exchange/src/point_addition.rs:16-72 `derive_x_coord_share`, run by the leader and the follower with each other. -/
def deriveXCoordShares (C : Conv) (el ef : EncodedPoint) : Outcome KxError Fp × Outcome KxError Fp :=
  match xShareStart .leader el, xShareStart .follower ef with
  | .ok (xl, inl), .ok (xf, inf) =>
    match C.toMultiplicative inl inf with
    | none => (.err .shareConversion, .err .shareConversion)
    | some (ml, mf) =>
      match xShareMid ml, xShareMid mf with
      | .ok cl, .ok cf =>
        match C.toAdditive [cl] [cf] with
        | none => (.err .shareConversion, .err .shareConversion)
        | some (dl, df) => (xShareEnd xl dl, xShareEnd xf df)
      | rl, rf => (orLost rl, orLost rf)
  | rl, rf => (orLost rl, orLost rf)

/-! ## exchange.rs -/

/-- crates/components/key-exchange/src/exchange.rs:27-31 `P`. -/
def modulusBytes : Bytes :=
  [0xFF, 0xFF, 0xFF, 0xFF, 0x00, 0x00, 0x00, 0x01, 0x00, 0x00, 0x00, 0x00, 0x00, 0x00, 0x00, 0x00,
   0x00, 0x00, 0x00, 0x00, 0xFF, 0xFF, 0xFF, 0xFF, 0xFF, 0xFF, 0xFF, 0xFF, 0xFF, 0xFF, 0xFF, 0xFF]

/-- The references that the states of crates/components/key-exchange/src/exchange.rs:36-58 carry. -/
structure Slots where
  a0 : VecRef
  b0 : VecRef
  a1 : VecRef
  b1 : VecRef
  eq : VecRef

/-- crates/components/key-exchange/src/exchange.rs:34-64 `State`. -/
inductive KxState where
  | initialized
  | setup (s : Slots)
  | followerKey (key : Point) (s : Slots)
  | computed (s : Slots) (pms0 pms1 : Fp)
  | equalityCheck (eq : Ref Bytes)
  | complete
  | error

/-- crates/components/key-exchange/src/exchange.rs:77-89 `MpcKeyExchange`.  The converters are parameters of the functions that use them. -/
structure Kx where
  role : Role
  state : KxState
  privateKey : Nat
  serverKey : Option Point

/-- crates/components/key-exchange/src/exchange.rs:99-110 `new`; the random key is an argument. -/
def Kx.new (role : Role) (sk : Nat) : Kx := ⟨role, .initialized, sk, none⟩

/-- `private_key.public_key()`. -/
def Kx.publicKey (k : Kx) : Point := k.privateKey • basePoint

/-- `PublicKey::from_affine`: the identity is not a key. -/
def publicKeyFrom (p : Point) : Outcome KxError Point :=
  match p with
  | .zero => .err .key
  | .some x y h => .ok (.some x y h)

/-- The reference to an output of the circuit. -/
def circuitOut (A : AddMod) (a0 b0 a1 b1 m : VecRef) (out : Bytes × Bytes × Bytes → Bytes) : VecRef :=
  ⟨none, 32, Ref.map2 (fun ab cdm => out (pmsCall A ab.1 ab.2 cdm.1 cdm.2.1 cdm.2.2))
    (Ref.map2 (fun a b => (a, b)) a0.val b0.val)
    (Ref.map2 (fun c dm => (c, dm)) a1.val (Ref.map2 (fun d m => (d, m)) b1.val m.val))⟩

/-- crates/components/key-exchange/src/exchange.rs:121-200 `alloc`.  The preallocation of the converters is left out, and both roles allocate in the same
order: they only mark the memory differently. -/
def Kx.alloc (A : AddMod) (k : Kx) (vm : Vm) : Kx × Vm × Outcome KxError VecRef :=
  match k.state with
  | .initialized =>
    let (vm1, a0) := vm.alloc 32
    let (vm2, b0) := vm1.alloc 32
    let (vm3, a1) := vm2.alloc 32
    let (vm4, b1) := vm3.alloc 32
    let (vm5, pc) := vm4.alloc 32
    match vm5.assign pc modulusBytes with
    | .ok vm6 =>
      let pms := circuitOut A a0 b0 a1 b1 pc (·.1)
      let eq := circuitOut A a0 b0 a1 b1 pc (·.2.2)
      ({ k with state := .setup ⟨a0, b0, a1, b1, eq⟩ }, vm6, .ok pms)
    | .err _ => ({ k with state := .error }, vm5, .err .vm)
    | .panic => ({ k with state := .error }, vm5, .panic)
  | _ => ({ k with state := .error }, vm, .err .state)

/-- crates/components/key-exchange/src/exchange.rs:203-207 `set_server_key`. -/
def Kx.setServerKey (k : Kx) (key : Point) : Kx := { k with serverKey := some key }

/-- crates/components/key-exchange/src/exchange.rs:214-233 `client_key`. -/
def Kx.clientKey (k : Kx) : Outcome KxError Point :=
  match k.role with
  | .follower => .err .role
  | .leader =>
    match k.state with
    | .followerKey fk _ => publicKeyFrom (k.publicKey + fk)
    | _ => .err .state

/-- crates/components/key-exchange/src/exchange.rs:236-295 `setup`.  `received` is the key that a leader receives, or none if the connection or a converter
fails; a follower does not use its value. -/
def Kx.setup (k : Kx) (received : Option Point) : Kx × Outcome KxError Unit :=
  match k.state with
  | .setup s =>
    match received with
    | none => ({ k with state := .error }, .err .io)
    | some r =>
      let fk := match k.role with
        | .leader => r
        | .follower => k.publicKey
      ({ k with state := .followerKey fk s }, .ok ())
  | _ => ({ k with state := .error }, .err .state)

/-- crates/components/key-exchange/src/exchange.rs:298-316 and 438-443: the part of `compute_shares` before the shares are converted. -/
def Kx.sharePoint (k : Kx) : Outcome KxError (Slots × EncodedPoint) :=
  match k.state with
  | .followerKey _ s =>
    match k.serverKey with
    | none => .err .role
    | some sk => publicKeyFrom (k.privateKey • sk) >>= fun p => .ok (s, encodePoint p)
  | _ => .err .state

/-- crates/components/key-exchange/src/exchange.rs:317-338: the part of `compute_shares` after the shares are converted. -/
def Kx.storeShares (k : Kx) (r0 r1 : Outcome KxError Fp) : Kx × Outcome KxError Unit :=
  match k.sharePoint with
  | .ok (s, _) =>
    match r0, r1 with
    | .ok p0, .ok p1 => ({ k with state := .computed s p0 p1 }, .ok ())
    | .panic, _ => ({ k with state := .error }, .panic)
    | _, .panic => ({ k with state := .error }, .panic)
    | .err e, _ => ({ k with state := .error }, .err e)
    | .ok _, .err e => ({ k with state := .error }, .err e)
  | .err e => ({ k with state := .error }, .err e)
  | .panic => ({ k with state := .error }, .panic)

/-- crates/components/key-exchange/src/exchange.rs:298-338 `compute_shares` and 420-462 `compute_ec_shares`, run by the leader and the follower with each
other. -/
def computeSharesBoth (C0 C1 : Conv) (l f : Kx) : (Kx × Outcome KxError Unit) × (Kx × Outcome KxError Unit) :=
  match l.sharePoint, f.sharePoint with
  | .ok (_, el), .ok (_, ef) =>
    let r0 := deriveXCoordShares C0 el ef
    let r1 := deriveXCoordShares C1 el ef
    (l.storeShares r0.1 r1.1, f.storeShares r0.2 r1.2)
  | _, _ => (l.storeShares (.err .shareConversion) (.err .shareConversion),
      f.storeShares (.err .shareConversion) (.err .shareConversion))

/-- crates/components/key-exchange/src/exchange.rs:367-393: the inputs that belong to the party. -/
def Kx.ownSlots (k : Kx) (s : Slots) : VecRef × VecRef :=
  match k.role with
  | .leader => (s.a0, s.a1)
  | .follower => (s.b0, s.b1)

/-- crates/components/key-exchange/src/exchange.rs:341-399 `assign`.  A party assigns and commits its own shares; that it also commits those of its peer has
no effect in the ideal machine. -/
def Kx.assign (k : Kx) (vm : Vm) : Kx × Vm × Outcome KxError Unit :=
  match k.state with
  | .computed s p0 p1 =>
    match vm.assign (k.ownSlots s).1 (fpBytes p0) with
    | .ok vm1 =>
      match vm1.assign (k.ownSlots s).2 (fpBytes p1) with
      | .ok vm2 => ({ k with state := .equalityCheck s.eq.val }, vm2, .ok ())
      | _ => ({ k with state := .error }, vm1, .err .vm)
    | _ => ({ k with state := .error }, vm, .err .vm)
  | _ => ({ k with state := .error }, vm, .err .state)

/-- crates/components/key-exchange/src/exchange.rs:402-418 `finalize`.  Awaiting a value that the machine has not computed fails. -/
def Kx.finalize (k : Kx) (vm : Vm) : Kx × Outcome KxError Unit :=
  match k.state with
  | .equalityCheck eq =>
    match vm.recv eq with
    | none => ({ k with state := .error }, .err .vm)
    | some v =>
      if v ≠ List.replicate 32 0 then ({ k with state := .error }, .err .shareConversion)
      else ({ k with state := .complete }, .ok ())
  | _ => ({ k with state := .error }, .err .state)

end Tlsn.Kex
