import Verif.Gcm.Vm
import Verif.RecordLayer.Model

/-! # AES-128 in counter mode and AES-GCM over the virtual machine

`crates/components/cipher` and `crates/mpc-tls/src/record_layer/aead/aes_gcm.rs`.  Failures of the machine that are not
due to its arguments are left out. -/

namespace Tlsn.Gcm

/-! ## AES-128 -/

/-- crates/components/cipher/src/aes/mod.rs:18-24 `Aes128` -/
structure Aes128 where
  key : Option Ref := none
  keySchedule : Option Ref := none
  iv : Option Ref := none
deriving DecidableEq, Repr

/-- crates/components/cipher/src/aes/error.rs:23-28 `ErrorKind`; `Vm` does not occur here -/
inductive AesError where
  | key
  | iv
deriving DecidableEq, Repr

/-- crates/components/cipher/src/lib.rs:85-94 `CtrBlock` -/
structure CtrBlock where
  nonce : Ref
  counter : Ref
  output : Ref
deriving DecidableEq, Repr

/-- crates/components/cipher/src/aes/mod.rs:53-55 `set_key`: the key schedule stays. -/
def Aes128.setKey (c : Aes128) (key : Ref) : Aes128 := { c with key := some key }

/-- crates/components/cipher/src/aes/mod.rs:57-59 `set_iv` -/
def Aes128.setIv (c : Aes128) (iv : Ref) : Aes128 := { c with iv := some iv }

/-- A call whose failure the code excludes with `expect("call should be valid")`. -/
def callOk {ε : Type} (vm : Vm) (c : Circ) (args : List Ref) : Outcome ε (Vm × Ref) :=
  match vm.call c args with
  | .ok r => .ok r
  | .error _ => .panic

/-- crates/components/cipher/src/aes/mod.rs:80-83, 113-116 and 168-171 with 26-42 `alloc_key_schedule`: the key
schedule, allocated the first time. -/
def Aes128.schedule (c : Aes128) (vm : Vm) (key : Ref) : Outcome AesError (Aes128 × Vm × Ref) :=
  match c.keySchedule with
  | some ks => .ok (c, vm, ks)
  | none => do
    let r ← callOk vm .aesKs [key]
    .ok ({ c with keySchedule := some r.2 }, r.1, r.2)

/-- crates/components/cipher/src/aes/mod.rs:69-96 `alloc_block` -/
def Aes128.allocBlock (c : Aes128) (vm : Vm) (input : Ref) : Outcome AesError (Aes128 × Vm × Ref) :=
  match c.key with
  | none => .err .key
  | some key => do
    let (c, vm, ks) ← c.schedule vm key
    let r ← callOk vm .aesPost [ks, input]
    .ok (c, r.1, r.2)

/-- An input for a nonce or a counter: crates/components/cipher/src/aes/mod.rs:107-117 and 153-167 -/
def allocPublic (vm : Vm) (n : Nat) : Vm × Ref :=
  let r := vm.alloc n
  (r.1.mark r.2 .pub, r.2)

/-- The call for one block: crates/components/cipher/src/aes/mod.rs:118-141 and 168-192 -/
def Aes128.blockCall (c : Aes128) (vm : Vm) (key iv nonce counter : Ref) : Outcome AesError (Aes128 × Vm × CtrBlock) := do
  let (c, vm, ks) ← c.schedule vm key
  let r ← callOk vm .aesPost [ks, iv, nonce, counter]
  .ok (c, r.1, ⟨nonce, counter, r.2⟩)

/-- crates/components/cipher/src/aes/mod.rs:98-141 `alloc_ctr_block` -/
def Aes128.allocCtrBlock (c : Aes128) (vm : Vm) : Outcome AesError (Aes128 × Vm × CtrBlock) :=
  match c.key, c.iv with
  | none, _ => .err .key
  | some _, none => .err .iv
  | some key, some iv =>
    let n := allocPublic vm 8
    let k := allocPublic n.1 4
    c.blockCall k.1 key iv n.2 k.2

/-- The inputs of `n` blocks: crates/components/cipher/src/aes/mod.rs:152-167.  Both are allocated before they are
marked. -/
def allocInputs : Nat → Vm → Vm × List (Ref × Ref)
  | 0, vm => (vm, [])
  | n + 1, vm =>
    let a := vm.alloc 8
    let b := a.1.alloc 4
    let r := allocInputs n ((b.1.mark a.2 .pub).mark b.2 .pub)
    (r.1, (a.2, b.2) :: r.2)

/-- The calls of the blocks: crates/components/cipher/src/aes/mod.rs:169-195 -/
def Aes128.blockCalls (key iv : Ref) : Aes128 → Vm → List (Ref × Ref) → Outcome AesError (Aes128 × Vm × List CtrBlock)
  | c, vm, [] => .ok (c, vm, [])
  | c, vm, i :: is => do
    let (c, vm, b) ← c.blockCall vm key iv i.1 i.2
    let (c, vm, bs) ← Aes128.blockCalls key iv c vm is
    .ok (c, vm, b :: bs)

/-- crates/components/cipher/src/aes/mod.rs:143-199 `alloc_keystream` -/
def Aes128.allocKeystream (c : Aes128) (vm : Vm) (len : Nat) : Outcome AesError (Aes128 × Vm × List CtrBlock) :=
  match c.key, c.iv with
  | none, _ => .err .key
  | some _, none => .err .iv
  | some key, some iv =>
    let is := allocInputs (divCeil16 len) vm
    Aes128.blockCalls key iv c is.1 is.2

/-! ## The keystream: its blocks in order -/

/-- The errors of a keystream and of a machine, crates/components/cipher/src/lib.rs:276-299, by their sources. -/
inductive CipherError where
  | insufficient
  | length
  | empty
  | call
  | assign
deriving DecidableEq, Repr

/-- crates/components/cipher/src/lib.rs:133-143 `consume`: what is left and what is taken, from the back. -/
def consume (ks : List CtrBlock) (len : Nat) : Except CipherError (List CtrBlock × List CtrBlock) :=
  let n := divCeil16 len
  if n > ks.length then .error .insufficient
  else .ok (ks.take (ks.length - n), ks.drop (ks.length - n))

/-- The loop of crates/components/cipher/src/lib.rs:163-178: each block with the next 16 bytes of the input. -/
def applyLoop (input : Ref) : List CtrBlock → Nat → Vm → Outcome CipherError (Vm × List Ref)
  | [], _, vm => .ok (vm, [])
  | b :: bs, pos, vm =>
    if pos + 16 > input.len then .panic
    else match vm.call (.xor 16) [b.output, ⟨input.addr + pos, 16⟩] with
      | .error _ => .err .call
      | .ok r => do
        let rest ← applyLoop input bs (pos + 16) r.1
        .ok (rest.1, r.2 :: rest.2)

/-- crates/components/cipher/src/lib.rs:247-273 `flatten_blocks` -/
def flattenBlocks (vm : Vm) (blocks : List Ref) : Outcome CipherError (Vm × Ref) :=
  match vm.call (.ident (blocks.map (·.len)).sum) blocks with
  | .error _ => .err .call
  | .ok r => .ok r

/-- crates/components/cipher/src/lib.rs:151-183 `apply` -/
def apply (ks : List CtrBlock) (vm : Vm) (input : Ref) : Outcome CipherError (Vm × Ref) :=
  if input.len ≠ 16 * ks.length then .err .length
  else if ks = [] then .err .empty
  else do
    let r ← applyLoop input ks 0 vm
    flattenBlocks r.1 r.2

/-- crates/components/cipher/src/lib.rs:186-208 `to_vector` -/
def toVector (ks : List CtrBlock) (vm : Vm) (len : Nat) : Outcome CipherError (Vm × Ref) :=
  if len = 0 then .err .empty
  else if ks = [] then .err .empty
  else if divCeil16 len ≠ ks.length then .err .length
  else do
    let r ← flattenBlocks vm (ks.map (·.output))
    .ok (r.1, r.2.truncate len)

/-- crates/components/cipher/src/lib.rs:218-237 `assign` with the counters from `ctr` on, which are 32-bit numbers in
big-endian order; whether all assignments succeed. -/
def assignKs (nonce : Bytes) : List CtrBlock → Nat → Vm → Vm × Bool
  | [], _, vm => (vm, true)
  | b :: bs, ctr, vm =>
    match vm.assign b.nonce nonce with
    | .error _ => (vm, false)
    | .ok vm =>
      match vm.assign b.counter (beBytes 4 ctr) with
      | .error _ => (vm, false)
      | .ok vm => assignKs nonce bs (ctr + 1) vm

/-! ## Shares -/

/-- crates/mpc-tls/src/decode.rs:18-30 `OneTimePadShared`: the own pad and the value with both pads. -/
structure Share where
  otp : Bytes
  masked : Ref
deriving DecidableEq, Repr

/-- `mask_private` of the machine: a private pad that is added. -/
def maskPrivate (vm : Vm) (value : Ref) (otp : Bytes) : Outcome CipherError (Vm × Ref) :=
  let p := vm.alloc value.len
  match (p.1.mark p.2 .priv).assign p.2 otp with
  | .error _ => .err .assign
  | .ok vm => callOk vm (.xor value.len) [value, p.2]

/-- `mask_blind` of the machine: a private pad of the other party. -/
def maskBlind (vm : Vm) (value : Ref) : Outcome CipherError (Vm × Ref) :=
  let p := vm.alloc value.len
  callOk (p.1.mark p.2 .blind) (.xor value.len) [value, p.2]

/-- crates/mpc-tls/src/decode.rs:32-56 `new`; the pad is drawn by the caller. -/
def shareNew (role : Role) (vm : Vm) (value : Ref) (otp : Bytes) : Outcome CipherError (Vm × Share) :=
  match role with
  | .leader => do
    let r ← maskPrivate vm value otp
    let r ← maskBlind r.1 r.2
    .ok (r.1, ⟨otp, r.2⟩)
  | .follower => do
    let r ← maskBlind vm value
    let r ← maskPrivate r.1 r.2 otp
    .ok (r.1, ⟨otp, r.2⟩)

/-- crates/mpc-tls/src/decode.rs:58-72 `poll`: the leader's share is its pad, the follower takes its own pad off the
value that was decoded. -/
def Share.resolve (s : Share) (role : Role) (decoded : Bytes) : Bytes :=
  match role with
  | .leader => s.otp
  | .follower => xorBytes decoded s.otp

/-! ## AES-GCM -/

/-- crates/mpc-tls/src/record_layer/aead/aes_gcm.rs:41-47 `State::Ready`, without GHASH. -/
structure Gcm where
  input : Ref
  keystream : List CtrBlock
  j0s : List (CtrBlock × Share)
  ghashKey : Ref
  ghashShare : Share
deriving DecidableEq, Repr

/-- crates/mpc-tls/src/record_layer/aead.rs:43-50 `ErrorRepr`, by origin. -/
inductive GcmError where
  | cipher
  | tag
  | aes (e : AesError)
deriving DecidableEq, Repr

/-- The error of a part, as one of the whole. -/
def liftErr {ε ε' α : Type} (f : ε → ε') : Outcome ε α → Outcome ε' α
  | .ok a => .ok a
  | .err e => .err (f e)
  | .panic => .panic

/-- The loop of crates/mpc-tls/src/record_layer/aead/aes_gcm.rs:104-111; `otps` are the pads that are drawn. -/
def allocJ0s (role : Role) (otps : Nat → Bytes) : Nat → Aes128 → Vm → Outcome GcmError (Aes128 × Vm × List (CtrBlock × Share))
  | 0, c, vm => .ok (c, vm, [])
  | n + 1, c, vm => do
    let (c, vm, b) ← liftErr .aes (c.allocCtrBlock vm)
    let (vm, s) ← liftErr (fun _ => .cipher) (shareNew role vm b.output (otps n))
    let (c, vm, rest) ← allocJ0s role otps n c vm
    .ok (c, vm, (b, s) :: rest)

/-- crates/mpc-tls/src/record_layer/aead/aes_gcm.rs:84-142 `alloc` from the initial state. -/
def Gcm.alloc (role : Role) (otp : Bytes) (otps : Nat → Bytes) (c : Aes128) (vm : Vm) (records len : Nat) :
    Outcome GcmError (Aes128 × Vm × Gcm) :=
  let z := allocPublic vm 16
  match z.1.assign z.2 (List.replicate 16 0) with
  | .error _ => .err .cipher
  | .ok vm => do
    let (c, vm, key) ← liftErr .aes (c.allocBlock vm z.2)
    let (vm, share) ← liftErr (fun _ => .cipher) (shareNew role vm key otp)
    let (c, vm, j0s) ← allocJ0s role otps records c vm
    let len := 16 * divCeil16 len
    let i := vm.alloc len
    let vm := i.1.mark i.2 (if role = .leader then .priv else .blind)
    let (c, vm, ks) ← liftErr .aes (c.allocKeystream vm len)
    .ok (c, vm, ⟨i.2, ks, j0s, key, share⟩)

/-- crates/mpc-tls/src/record_layer/aead/aes_gcm.rs:243-256: the padding of the input, which the leader assigns; an error
leaves the machine. -/
def padInput (role : Role) (vm : Vm) (input out : Ref) (padding len : Nat) : Except Vm (Vm × Ref × Ref) :=
  if padding > 0 then
    let p := input.splitOff (input.len - padding)
    if role = .leader then
      match vm.assign p.2 (List.replicate padding 0) with
      | .error _ => .error vm
      | .ok vm => .ok (vm, p.1, out.truncate len)
    else .ok (vm, p.1, out.truncate len)
  else .ok (vm, input, out)

/-- crates/mpc-tls/src/record_layer/aead/aes_gcm.rs:196-257 `apply_keystream`: the state after it and the parts of the
input and the output.  `padded_len` does not overflow (`Aead.applyKeystream` has the overflow). -/
def Gcm.applyKeystream (role : Role) (g : Gcm) (vm : Vm) (nonce : Bytes) (len : Nat) :
    Gcm × Vm × Outcome GcmError (Ref × Ref) :=
  if nonce.length ≠ 8 then (g, vm, .err .cipher)
  else
    let padded := divCeil16 len * 16
    if padded > g.input.len then (g, vm, .err .cipher)
    else
      let s := g.input.splitOff (g.input.len - padded)
      let g := { g with input := s.1 }
      match consume g.keystream padded with
      | .error _ => (g, vm, .err .cipher)
      | .ok (rest, ks) =>
        let g := { g with keystream := rest }
        match apply ks vm s.2 with
        | .err _ => (g, vm, .err .cipher)
        | .panic => (g, vm, .panic)
        | .ok (vm, out) =>
          match assignKs nonce ks 2 vm with
          | (vm, false) => (g, vm, .err .cipher)
          | (vm, true) =>
            match padInput role vm s.2 out (padded - len) len with
            | .error vm => (g, vm, .err .cipher)
            | .ok (vm, r) => (g, vm, .ok r)

/-- crates/mpc-tls/src/record_layer/aead/aes_gcm.rs:266-307 `take_keystream` -/
def Gcm.takeKeystream (g : Gcm) (vm : Vm) (nonce : Bytes) (len : Nat) : Gcm × Vm × Outcome GcmError Ref :=
  if nonce.length ≠ 8 then (g, vm, .err .cipher)
  else if divCeil16 len * 16 > g.input.len then (g, vm, .err .cipher)
  else
    match consume g.keystream len with
    | .error _ => (g, vm, .err .cipher)
    | .ok (rest, ks) =>
      let g := { g with keystream := rest }
      match assignKs nonce ks 2 vm with
      | (vm, false) => (g, vm, .err .cipher)
      | (vm, true) =>
        match toVector ks vm len with
        | .err _ => (g, vm, .err .cipher)
        | .panic => (g, vm, .panic)
        | .ok (vm, out) => (g, vm, .ok out)

/-- crates/mpc-tls/src/record_layer/aead/aes_gcm.rs:355-365 and 410-420 with `assign_j0` 437-448: the counter block of
one tag, taken from the back. -/
def Gcm.takeJ0 (g : Gcm) (vm : Vm) (nonce : Bytes) : Gcm × Vm × Outcome GcmError (CtrBlock × Share) :=
  if nonce.length ≠ 8 then (g, vm, .err .cipher)
  else match g.j0s.getLast? with
    | none => (g, vm, .panic)
    | some j =>
      let g := { g with j0s := g.j0s.dropLast }
      match vm.assign j.1.nonce nonce with
      | .error _ => (g, vm, .err .cipher)
      | .ok vm =>
        match vm.assign j.1.counter (beBytes 4 1) with
        | .error _ => (g, vm, .err .cipher)
        | .ok vm => (g, vm, .ok j)

/-- The loop over the records, crates/mpc-tls/src/record_layer/aead/aes_gcm.rs:354-373 and 409-429. -/
def Gcm.takeJ0s : List Bytes → Gcm → Vm → Gcm × Vm × Outcome GcmError (List (CtrBlock × Share))
  | [], g, vm => (g, vm, .ok [])
  | n :: ns, g, vm =>
    match g.takeJ0 vm n with
    | (g, vm, .err e) => (g, vm, .err e)
    | (g, vm, .panic) => (g, vm, .panic)
    | (g, vm, .ok j) =>
      match Gcm.takeJ0s ns g vm with
      | (g, vm, .err e) => (g, vm, .err e)
      | (g, vm, .panic) => (g, vm, .panic)
      | (g, vm, .ok js) => (g, vm, .ok (j :: js))

/-- crates/mpc-tls/src/record_layer/aead/aes_gcm.rs:335-378 `compute_tags` and 390-434 `verify_tags`: the counter blocks
of the tags. -/
def Gcm.tags (g : Gcm) (vm : Vm) (nonces : List Bytes) : Gcm × Vm × Outcome GcmError (List (CtrBlock × Share)) :=
  if nonces.length > g.j0s.length then (g, vm, .err .tag) else Gcm.takeJ0s nonces g vm

/-! ## Histories -/

/-- What is done with an AES-GCM and its machine after `alloc`: its calls, and any other use of the machine. -/
inductive GcmOp where
  | apply (nonce : Bytes) (len : Nat)
  | take (nonce : Bytes) (len : Nat)
  | tags (nonces : List Bytes)
  | vmAlloc (n : Nat) (vis : Vis)
  | vmCall (c : Circ) (args : List Ref)
  | vmAssign (r : Ref) (b : Bytes)
deriving DecidableEq, Repr

/-- What a call gives. -/
inductive GcmOut where
  | applied (input output : Ref)
  | taken (keystream : Ref)
  | tags (j0s : List (CtrBlock × Share))
  | none
  | panic
deriving DecidableEq, Repr

def GcmOp.run (role : Role) (op : GcmOp) (g : Gcm) (vm : Vm) : Gcm × Vm × GcmOut :=
  match op with
  | .apply n len =>
    match g.applyKeystream role vm n len with
    | (g, vm, .ok (i, o)) => (g, vm, .applied i o)
    | (g, vm, .err _) => (g, vm, .none)
    | (g, vm, .panic) => (g, vm, .panic)
  | .take n len =>
    match g.takeKeystream vm n len with
    | (g, vm, .ok o) => (g, vm, .taken o)
    | (g, vm, .err _) => (g, vm, .none)
    | (g, vm, .panic) => (g, vm, .panic)
  | .tags ns =>
    match g.tags vm ns with
    | (g, vm, .ok js) => (g, vm, .tags js)
    | (g, vm, .err _) => (g, vm, .none)
    | (g, vm, .panic) => (g, vm, .panic)
  | .vmAlloc n v => let r := vm.alloc n; (g, r.1.mark r.2 v, .none)
  | .vmCall c args =>
    match vm.call c args with
    | .ok r => (g, r.1, .none)
    | .error _ => (g, vm, .none)
  | .vmAssign r b =>
    match vm.assign r b with
    | .ok vm => (g, vm, .none)
    | .error _ => (g, vm, .none)

/-- Any number of operations, with what each gave. -/
def runGcm (role : Role) : List GcmOp → Gcm → Vm → Gcm × Vm × List GcmOut
  | [], g, vm => (g, vm, [])
  | op :: ops, g, vm =>
    let r := op.run role g vm
    let rest := runGcm role ops r.1 r.2.1
    (rest.1, rest.2.1, r.2.2 :: rest.2.2)

end Tlsn.Gcm
