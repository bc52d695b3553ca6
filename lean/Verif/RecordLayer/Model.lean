import Verif.Ghash.Model
import Verif.Cipher.Model
import Verif.Config.Model

/-!
# Model of the MPC-TLS record layer

`crates/mpc-tls/src/record_layer.rs` and its submodules `encrypt.rs`, `decrypt.rs`, `aead/aes_gcm.rs` and
`aes_gcm.rs`.

The secure computation is replaced by what it computes: AES-CTR blocks and GHASH under the session keys
are parameters.  The operations of the virtual machine are assumed to succeed, except that a run of the
protocol may fail as a whole (`FlushEnv.mpcOk`).  The locks may be held by somebody else
(`FlushEnv.locksFree`).
-/

namespace Tlsn

/-- crates/mpc-tls/src/lib.rs `Role`. -/
inductive Role where
  | leader
  | follower
  deriving DecidableEq, Repr

/-- What the two parties compute jointly in one direction: the AES block for the fixed IV, an explicit
nonce and a counter, and GHASH under the direction's key. -/
structure AeadFn where
  block : Bytes → Nat → Vector Byte 16
  ghash : Bytes → Vector Byte 16

/-- The session keys of both directions, as functions. -/
structure SessionFns where
  client : AeadFn
  server : AeadFn

/-- `len` bytes of keystream: the blocks with counters 2, 3, ... (crates/mpc-tls/src/record_layer/aead/aes_gcm.rs:26, 238-241 and
300-303). -/
def AeadFn.keystream (f : AeadFn) (nonce : Bytes) (len : Nat) : Bytes :=
  ((List.range (divCeil16 len)).flatMap fun i => (f.block nonce (2 + i)).toList).take len

/-- The tag of a record: GHASH of the padded data xor the block with counter 1
(crates/mpc-tls/src/record_layer/aead/ghash/compute.rs:72-84, crates/mpc-tls/src/record_layer/aead/aes_gcm.rs:437-448). -/
def AeadFn.tag (f : AeadFn) (nonce aad ciphertext : Bytes) : Bytes :=
  xorBytes (f.block nonce 1).toList (f.ghash (buildGhashData aad ciphertext)).toList

/-! ## Resources of one direction -/

/-- crates/mpc-tls/src/record_layer/aead/aes_gcm.rs:41-47 `State::Ready`: the number of input bytes left,
the keystream blocks left and the counter blocks left for tags, each block with its allocation number.
`assigned` records the assignments to counter blocks: allocation number, nonce, counter. -/
structure Aead where
  input : Nat
  keystream : Keystream
  j0s : List Nat
  assigned : List (Nat × Bytes × Nat)
  deriving DecidableEq, Repr

/-- crates/mpc-tls/src/record_layer/aead/aes_gcm.rs:85-140 `alloc` (followed by `setup`): `records` counter blocks for tags are allocated
first, then the keystream for `len` bytes rounded up to blocks. -/
def Aead.alloc (records len : Nat) : Aead :=
  { input := 16 * divCeil16 len
    keystream := ⟨(List.range (divCeil16 len)).map (records + ·)⟩
    j0s := List.range records
    assigned := [] }

/-- Errors of the record layer, by origin. -/
inductive RlError where
  | state
  | bufferFull
  | limit
  | plaintext
  | lock
  | cipher
  | tag
  | mpc
  deriving DecidableEq, Repr

/-- crates/mpc-tls/src/record_layer/aead/aes_gcm.rs:198-256 `apply_keystream`: consumes input and keystream.  `padded_len` wraps like a
`usize`.  The check of the explicit nonce's length (213-219) precedes everything else. -/
def Aead.applyKeystream (a : Aead) (nonce : Bytes) (len : Nat) : Aead × Except RlError Unit :=
  if nonce.length ≠ 8 then (a, .error .cipher)
  else
    let padded := divCeil16 len * 16 % 2 ^ 64
    if padded > a.input then (a, .error .cipher)
    else
      let a1 := { a with input := a.input - padded }
      match a1.keystream.consume padded with
      | none => (a1, .error .cipher)
      | some (rest, got) =>
        -- crates/components/cipher/src/lib.rs:156-160 `apply`: no blocks is an error
        if got.blocks.isEmpty then ({ a1 with keystream := rest }, .error .cipher)
        else ({ a1 with keystream := rest, assigned := a1.assigned ++ got.assign nonce 2 }, .ok ())

/-- crates/mpc-tls/src/record_layer/aead/aes_gcm.rs:266-307 `take_keystream`: consumes keystream only, though the input left is checked.
The blocks are assigned before `to_vector` (crates/components/cipher/src/lib.rs:185-206) rejects length 0. -/
def Aead.takeKeystream (a : Aead) (nonce : Bytes) (len : Nat) : Aead × Except RlError Unit :=
  if nonce.length ≠ 8 then (a, .error .cipher)
  else
    let padded := divCeil16 len * 16 % 2 ^ 64
    if padded > a.input then (a, .error .cipher)
    else match a.keystream.consume len with
      | none => (a, .error .cipher)
      | some (rest, got) =>
        let a1 := { a with keystream := rest, assigned := a.assigned ++ got.assign nonce 2 }
        if len = 0 then (a1, .error .cipher) else (a1, .ok ())

/-- One counter block for a tag, crates/mpc-tls/src/record_layer/aead/aes_gcm.rs:355-373 and 410-429 with `assign_j0` 437-448: the nonce
must have 8 bytes, the last block is popped and gets counter 1.  `none` is the error; the panic of
`j0s.pop().expect(..)` cannot happen because the number of blocks was checked. -/
def Aead.takeJ0 (a : Aead) (nonce : Bytes) : Aead × Except RlError Unit :=
  if nonce.length ≠ 8 then (a, .error .cipher)
  else match a.j0s.getLast? with
    | none => (a, .error .tag)
    | some id => ({ a with j0s := a.j0s.dropLast, assigned := a.assigned ++ [(id, nonce, 1)] }, .ok ())

/-- The loop over the records in crates/mpc-tls/src/record_layer/aead/aes_gcm.rs:354-373 and 409-429. -/
def Aead.takeJ0s (a : Aead) : List Bytes → Aead × Except RlError Unit
  | [] => (a, .ok ())
  | n :: ns => match a.takeJ0 n with
    | (a1, .ok ()) => a1.takeJ0s ns
    | (a1, .error e) => (a1, .error e)

/-- crates/mpc-tls/src/record_layer/aead/aes_gcm.rs:335-378 `compute_tags` and 390-434 `verify_tags`: one counter block per record. -/
def Aead.tags (a : Aead) (nonces : List Bytes) : Aead × Except RlError Unit :=
  if nonces.length > a.j0s.length then (a, .error .tag)
  else a.takeJ0s nonces

/-! ## Operations and records -/

/-- crates/mpc-tls/src/record_layer/encrypt.rs:179-185 and crates/mpc-tls/src/record_layer/decrypt.rs:201-207. -/
inductive Mode where
  | priv
  | pub
  deriving DecidableEq, Repr

/-- The mode of a record: crates/mpc-tls/src/record_layer.rs:310-313 and 352-355. -/
def modeOf (t : ContentType) : Mode := if t = .applicationData then .priv else .pub

/-- crates/mpc-tls/src/record_layer/encrypt.rs:127-136 `EncryptOp`. -/
structure EncryptOp where
  seq : Nat
  typ : ContentType
  version : ProtocolVersion
  len : Nat
  plaintext : Option Bytes
  nonce : Bytes
  aad : Bytes
  mode : Mode
  deriving DecidableEq, Repr

/-- crates/mpc-tls/src/record_layer/encrypt.rs:138-177 `EncryptOp::new`. -/
def EncryptOp.new (seq : Nat) (typ : ContentType) (version : ProtocolVersion) (len : Nat)
    (plaintext : Option Bytes) (nonce aad : Bytes) (mode : Mode) : Except RlError EncryptOp :=
  if plaintext.any (fun p => decide (p.length ≠ len)) then .error .plaintext
  else if mode = .pub ∧ plaintext = none then .error .plaintext
  else .ok ⟨seq, typ, version, len, plaintext, nonce, aad, mode⟩

/-- crates/mpc-tls/src/record_layer/decrypt.rs:165-174 `DecryptOp`. -/
structure DecryptOp where
  seq : Nat
  typ : ContentType
  version : ProtocolVersion
  nonce : Bytes
  ciphertext : Bytes
  aad : Bytes
  tag : Bytes
  mode : Mode
  deriving DecidableEq, Repr

/-- crates/mpc-tls/src/record_layer.rs:46-53 `EncryptedRecord`. -/
structure EncryptedRecord where
  typ : ContentType
  version : ProtocolVersion
  nonce : Bytes
  ciphertext : Bytes
  tag : Option Bytes
  deriving DecidableEq, Repr

/-- crates/mpc-tls/src/record_layer.rs:39-44 `PlainRecord`. -/
structure PlainRecord where
  typ : ContentType
  version : ProtocolVersion
  plaintext : Option Bytes
  deriving DecidableEq, Repr

/-- crates/core/src/transcript/tls.rs:189-204 `Record`. -/
structure Record where
  seq : Nat
  typ : ContentType
  plaintext : Option Bytes
  nonce : Bytes
  ciphertext : Bytes
  tag : Option Bytes
  deriving DecidableEq, Repr

/-- crates/mpc-tls/src/record_layer.rs:55-64 `State`. -/
inductive RlState where
  | init
  | online (recvOtp : Option Bytes) (sent recv : List Record)
  | complete
  | error
  deriving DecidableEq, Repr

/-- crates/mpc-tls/src/record_layer.rs:73-100 `RecordLayer`. -/
structure RecordLayer where
  role : Role
  writeSeq : Nat
  readSeq : Nat
  encrypter : Aead
  decrypter : Aead
  state : RlState
  started : Bool
  sent : Nat
  recvOnline : Nat
  recv : Nat
  maxSent : Nat
  maxRecvOnline : Nat
  maxRecv : Nat
  encryptBuffer : List EncryptOp
  decryptBuffer : List DecryptOp
  encryptedBuffer : List EncryptedRecord
  decryptedBuffer : List PlainRecord
  deriving DecidableEq, Repr

/-- crates/mpc-tls/src/record_layer.rs:104-125 `new` followed by 139-193 `alloc` and 246-268 `setup`: the record layer when
the session keys are known.  The leader's one-time pad is an argument (`fill_bytes`, 170-178). -/
def RecordLayer.online (role : Role) (otp : Bytes) (sentRecords recvRecords sentLen recvLenOnline recvLen : Nat) :
    RecordLayer :=
  { role, writeSeq := 0, readSeq := 0
    encrypter := Aead.alloc sentRecords sentLen
    decrypter := Aead.alloc recvRecords recvLenOnline
    state := .online (if role = .leader then some otp else none) [] []
    started := false, sent := 0, recvOnline := 0, recv := 0
    maxSent := sentLen, maxRecvOnline := recvLenOnline, maxRecv := recvLen
    encryptBuffer := [], decryptBuffer := [], encryptedBuffer := [], decryptedBuffer := [] }

/-- crates/mpc-tls/src/record_layer.rs:37 `MAX_BUFFER_SIZE`. -/
def maxBufferSize : Nat := 16 * 2 ^ 20 / (1026 * 16)

/-- crates/mpc-tls/src/record_layer.rs:270-275 `is_empty`. -/
def RecordLayer.isEmpty (r : RecordLayer) : Bool :=
  r.encryptBuffer.isEmpty && r.decryptBuffer.isEmpty && r.encryptedBuffer.isEmpty &&
    r.decryptedBuffer.isEmpty

/-- crates/mpc-tls/src/record_layer.rs:277-279 `wants_flush`. -/
def RecordLayer.wantsFlush (r : RecordLayer) : Bool :=
  !r.encryptBuffer.isEmpty || !r.decryptBuffer.isEmpty

/-- crates/mpc-tls/src/record_layer.rs:286-329 `push_encrypt` with `next_write` 620-632.  The sequence number wraps like a
`u64`, the byte count like a `usize`. -/
def RecordLayer.pushEncrypt (r : RecordLayer) (typ : ContentType) (version : ProtocolVersion) (len : Nat)
    (plaintext : Option Bytes) : RecordLayer × Except RlError Unit :=
  if r.encryptBuffer.length ≥ maxBufferSize then (r, .error .bufferFull)
  else if usizeAdd r.sent len > r.maxSent then (r, .error .limit)
  else
    let seq := r.writeSeq
    let r1 := { r with writeSeq := (seq + 1) % 2 ^ 64, sent := usizeAdd r.sent len }
    match EncryptOp.new seq typ version len plaintext (beBytes 8 seq) (makeTls12Aad seq typ version len)
        (modeOf typ) with
    | .error e => (r1, .error e)
    | .ok op => ({ r1 with encryptBuffer := r1.encryptBuffer ++ [op] }, .ok ())

/-- crates/mpc-tls/src/record_layer.rs:331-371 `push_decrypt` with `next_read` 634-645. -/
def RecordLayer.pushDecrypt (r : RecordLayer) (typ : ContentType) (version : ProtocolVersion)
    (nonce ciphertext tag : Bytes) : RecordLayer × Except RlError Unit :=
  if r.decryptBuffer.length ≥ maxBufferSize then (r, .error .bufferFull)
  else if usizeAdd r.recv ciphertext.length > r.maxRecv then (r, .error .limit)
  else
    let seq := r.readSeq
    let op : DecryptOp := ⟨seq, typ, version, nonce, ciphertext,
      makeTls12Aad seq typ version ciphertext.length, tag, modeOf typ⟩
    ({ r with readSeq := (seq + 1) % 2 ^ 64, recv := usizeAdd r.recv ciphertext.length
              decryptBuffer := r.decryptBuffer ++ [op] }, .ok ())

/-- crates/mpc-tls/src/record_layer.rs:374-382 `next_encrypted`. -/
def RecordLayer.nextEncrypted (r : RecordLayer) : RecordLayer × Option EncryptedRecord :=
  match r.encryptedBuffer with
  | [] => (r, none)
  | x :: rest =>
    if !r.started && decide (x.typ = .applicationData) then (r, none)
    else ({ r with encryptedBuffer := rest }, some x)

/-- crates/mpc-tls/src/record_layer.rs:385-393 `next_decrypted`. -/
def RecordLayer.nextDecrypted (r : RecordLayer) : RecordLayer × Option PlainRecord :=
  match r.decryptedBuffer with
  | [] => (r, none)
  | x :: rest =>
    if !r.started && decide (x.typ = .applicationData) then (r, none)
    else ({ r with decryptedBuffer := rest }, some x)

/-! ## Flush -/

/-- What the environment decides about one `flush` or `commit`: whether the locks are free and whether
the protocol run with the peer succeeds. -/
structure FlushEnv where
  locksFree : Bool
  mpcOk : Bool
  deriving DecidableEq, Repr

/-- One iteration of crates/mpc-tls/src/record_layer/encrypt.rs:99-118 `encrypt`: resources only. -/
def Aead.encryptOp (a : Aead) (op : EncryptOp) : Aead × Except RlError Unit :=
  match op.mode with
  | .priv => a.applyKeystream op.nonce op.len
  | .pub => if op.plaintext = none then (a, .error .plaintext) else a.takeKeystream op.nonce op.len

/-- The loop of crates/mpc-tls/src/record_layer/encrypt.rs:99-118. -/
def Aead.encryptOps (a : Aead) : List EncryptOp → Aead × Except RlError Unit
  | [] => (a, .ok ())
  | op :: ops => match a.encryptOp op with
    | (a1, .ok ()) => a1.encryptOps ops
    | (a1, .error e) => (a1, .error e)

/-- crates/mpc-tls/src/record_layer/encrypt.rs:91-125 `encrypt`: the loop, then `compute_tags`. -/
def Aead.encryptAll (a : Aead) (ops : List EncryptOp) : Aead × Except RlError Unit :=
  match a.encryptOps ops with
  | (a1, .error e) => (a1, .error e)
  | (a1, .ok ()) => a1.tags (ops.map (·.nonce))

/-- The plaintext that enters the joint computation.  A party that was not given the plaintext of a
private record runs the computation on the peer's plaintext `peer seq`; the virtual machine's input has
exactly `len` bytes. -/
def EncryptOp.input (peer : Nat → Bytes) (op : EncryptOp) : Bytes :=
  op.plaintext.getD ((peer op.seq ++ List.replicate op.len 0).take op.len)

/-- crates/mpc-tls/src/record_layer/encrypt.rs:25-47, 64-80, 209-250: plaintext xor keystream in both modes. -/
def EncryptOp.cipher (f : AeadFn) (peer : Nat → Bytes) (op : EncryptOp) : Bytes :=
  xorBytes (op.input peer) (f.keystream op.nonce op.len)

/-- The tag of an encrypted record as the leader learns it; the follower gets `None`
(crates/mpc-tls/src/record_layer/aead/ghash/compute.rs:86-111). -/
def EncryptOp.tagFor (f : AeadFn) (peer : Nat → Bytes) (role : Role) (op : EncryptOp) : Option Bytes :=
  if role = .leader then some (f.tag op.nonce op.aad (op.cipher f peer)) else none

/-- crates/mpc-tls/src/record_layer.rs:506-512. -/
def EncryptOp.encrypted (f : AeadFn) (peer : Nat → Bytes) (role : Role) (op : EncryptOp) : EncryptedRecord :=
  ⟨op.typ, op.version, op.nonce, op.cipher f peer, op.tagFor f peer role⟩

/-- crates/mpc-tls/src/record_layer.rs:514-521. -/
def EncryptOp.record (f : AeadFn) (peer : Nat → Bytes) (role : Role) (op : EncryptOp) : Record :=
  ⟨op.seq, op.typ, op.plaintext, op.nonce, op.cipher f peer, op.tagFor f peer role⟩

/-- crates/mpc-tls/src/record_layer/decrypt.rs:21-35: the leader's one-time pad for a private record is cut off the end of the unused
pad; `none` is the error of 21-29.  The follower has no pad. -/
def takeOtp (otp : Option Bytes) (n : Nat) : Option (Option Bytes × Option Bytes) :=
  match otp with
  | none => some (none, none)
  | some o => if n > o.length then none
    else some (some (o.take (o.length - n)), some (o.drop (o.length - n)))

/-- crates/mpc-tls/src/record_layer/decrypt.rs:235-257 `DecryptPrivate::try_decrypt`, where the masked keystream decoded by the virtual
machine is the one-time pad xor the keystream (31-44). -/
def decryptPrivate (f : AeadFn) (otp : Option Bytes) (op : DecryptOp) : Option Bytes :=
  otp.map fun o =>
    let masked := xorBytes o (f.keystream op.nonce op.ciphertext.length)
    xorBytes op.ciphertext (xorBytes o masked)

/-- crates/mpc-tls/src/record_layer/decrypt.rs:61-68 and 265-289: ciphertext xor keystream. -/
def decryptPublic (f : AeadFn) (op : DecryptOp) : Bytes :=
  xorBytes op.ciphertext (f.keystream op.nonce op.ciphertext.length)

/-- One iteration of crates/mpc-tls/src/record_layer/decrypt.rs:78-91 `decrypt_mpc`: resources, one-time pad left and the plaintext the
party will learn. -/
def decryptOpMpc (f : AeadFn) (a : Aead) (otp : Option Bytes) (op : DecryptOp) :
    Aead × Option Bytes × Except RlError (Option Bytes) :=
  match op.mode with
  | .priv => match takeOtp otp op.ciphertext.length with
    | none => (a, otp, .error .limit)
    | some (otp', mine) => match a.applyKeystream op.nonce op.ciphertext.length with
      | (a1, .error e) => (a1, otp, .error e)
      | (a1, .ok ()) => (a1, otp', .ok (decryptPrivate f mine op))
  | .pub => match a.takeKeystream op.nonce op.ciphertext.length with
    | (a1, .error e) => (a1, otp, .error e)
    | (a1, .ok ()) => (a1, otp, .ok (some (decryptPublic f op)))

/-- crates/mpc-tls/src/record_layer/decrypt.rs:71-94 `decrypt_mpc`. -/
def decryptMpc (f : AeadFn) (a : Aead) (otp : Option Bytes) :
    List DecryptOp → Aead × Option Bytes × Except RlError (List (Option Bytes))
  | [] => (a, otp, .ok [])
  | op :: ops => match decryptOpMpc f a otp op with
    | (a1, otp1, .error e) => (a1, otp1, .error e)
    | (a1, otp1, .ok p) => match decryptMpc f a1 otp1 ops with
      | (a2, otp2, .error e) => (a2, otp2, .error e)
      | (a2, otp2, .ok ps) => (a2, otp2, .ok (p :: ps))

/-- crates/mpc-tls/src/record_layer/aead/ghash.rs:196-204: an input of more than 1026 blocks is rejected. -/
def ghashFits (aad ciphertext : Bytes) : Bool :=
  decide (blockCount (buildGhashData aad ciphertext).length ≤ 1026)

/-- crates/mpc-tls/src/record_layer/aead/ghash/verify.rs:46-108 `VerifyTags::run` with an honest peer: the leader compares the tags. -/
def verifyTagsRun (f : AeadFn) (role : Role) (ops : List DecryptOp) : Bool :=
  ops.all fun op => ghashFits op.aad op.ciphertext &&
    (decide (role = .follower) || decide (op.tag = f.tag op.nonce op.aad op.ciphertext))

/-- crates/mpc-tls/src/record_layer/aead/ghash/compute.rs:44-114 `ComputeTags::run` with an honest peer. -/
def computeTagsRun (f : AeadFn) (peer : Nat → Bytes) (ops : List EncryptOp) : Bool :=
  ops.all fun op => ghashFits op.aad (op.cipher f peer)

/-- crates/mpc-tls/src/record_layer.rs:526-530 and 599-603. -/
def DecryptOp.plain (op : DecryptOp) (p : Option Bytes) : PlainRecord := ⟨op.typ, op.version, p⟩

/-- crates/mpc-tls/src/record_layer.rs:532-539 and 605-612. -/
def DecryptOp.record (op : DecryptOp) (p : Option Bytes) : Record :=
  ⟨op.seq, op.typ, p, op.nonce, op.ciphertext, some op.tag⟩

/-- crates/mpc-tls/src/record_layer.rs:465-542: the part of `flush` after the operations were drained and counted.  `eops`
and `dops` are the drained operations. -/
def RecordLayer.flushRun (k : SessionFns) (peer : Nat → Bytes) (env : FlushEnv) (r : RecordLayer)
    (otp : Option Bytes) (sent recv : List Record) (eops : List EncryptOp) (dops : List DecryptOp) :
    RecordLayer × Except RlError Unit :=
  match r.encrypter.encryptAll eops with
  | (e1, .error e) => ({ r with encrypter := e1 }, .error e)
  | (e1, .ok ()) => match decryptMpc k.server r.decrypter otp dops with
    | (d1, otp1, .error e) =>
      ({ r with encrypter := e1, decrypter := d1, state := .online otp1 sent recv }, .error e)
    | (d1, otp1, .ok ps) => match d1.tags (dops.map (·.nonce)) with
      | (d2, .error e) =>
        ({ r with encrypter := e1, decrypter := d2, state := .online otp1 sent recv }, .error e)
      | (d2, .ok ()) =>
        let r1 := { r with encrypter := e1, decrypter := d2, state := .online otp1 sent recv }
        if !env.mpcOk then (r1, .error .mpc)
        else if !verifyTagsRun k.server r.role dops then (r1, .error .tag)
        else if !computeTagsRun k.client peer eops then (r1, .error .tag)
        else
          ({ r1 with
              encryptedBuffer := r.encryptedBuffer ++ eops.map (·.encrypted k.client peer r.role)
              decryptedBuffer := r.decryptedBuffer ++ List.zipWith DecryptOp.plain dops ps
              state := .online otp1 (sent ++ eops.map (·.record k.client peer r.role))
                (recv ++ List.zipWith DecryptOp.record dops ps) }, .ok ())

/-- crates/mpc-tls/src/record_layer.rs:433-437: the position of the first application data record. -/
def firstAppData (ops : List DecryptOp) : Nat := ops.findIdx fun op => decide (op.typ = .applicationData)

/-- crates/mpc-tls/src/record_layer.rs:396-543 `flush`. -/
def RecordLayer.flush (k : SessionFns) (peer : Nat → Bytes) (env : FlushEnv) (r : RecordLayer)
    (isDecrypting : Bool) : RecordLayer × Except RlError Unit :=
  match r.state with
  | .online otp sent recv =>
    if !env.locksFree then (r, .error .lock)
    else
      let eops := r.encryptBuffer
      let pos := if isDecrypting then r.decryptBuffer.length else firstAppData r.decryptBuffer
      let dops := r.decryptBuffer.take pos
      let r1 := { r with encryptBuffer := [], decryptBuffer := r.decryptBuffer.drop pos }
      if eops.isEmpty && dops.isEmpty then (r1, .ok ())
      else
        let len := (dops.map (·.ciphertext.length)).sum
        if isDecrypting && decide (usizeAdd r.recvOnline len > r.maxRecvOnline) then (r1, .error .limit)
        else
          let r2 := if isDecrypting then { r1 with recvOnline := usizeAdd r.recvOnline len } else r1
          r2.flushRun k peer env otp sent recv eops dops
  | _ => (r, .error .state)

/-! ## Commit -/

/-- crates/mpc-tls/src/record_layer/aes_gcm.rs:181-219 `decrypt` with the decoded server key: panics unless the nonce has 8 and the tag 16
bytes (`copy_from_slice`, `GenericArray::from_slice`), fails unless the tag is right. -/
def localDecrypt (f : AeadFn) (op : DecryptOp) : Outcome RlError Bytes :=
  if op.nonce.length ≠ 8 ∨ op.tag.length ≠ 16 then .panic
  else if op.tag = f.tag op.nonce op.aad op.ciphertext then
    .ok (xorBytes op.ciphertext (f.keystream op.nonce op.ciphertext.length))
  else .err .tag

/-- One iteration of crates/mpc-tls/src/record_layer/decrypt.rs:104-131 `decrypt_local`. -/
def decryptOpLocal (f : AeadFn) (role : Role) (a : Aead) (op : DecryptOp) :
    Aead × Outcome RlError (Option Bytes) :=
  match op.mode with
  | .priv => if role = .leader then
      (a, match localDecrypt f op with
        | .ok p => .ok (some p)
        | .err e => .err e
        | .panic => .panic)
    else (a, .ok none)
  | .pub => match a.takeKeystream op.nonce op.ciphertext.length with
    | (a1, .error e) => (a1, .err e)
    | (a1, .ok ()) => (a1, .ok (some (decryptPublic f op)))

/-- crates/mpc-tls/src/record_layer/decrypt.rs:96-134 `decrypt_local`. -/
def decryptLocal (f : AeadFn) (role : Role) (a : Aead) :
    List DecryptOp → Aead × Outcome RlError (List (Option Bytes))
  | [] => (a, .ok [])
  | op :: ops => match decryptOpLocal f role a op with
    | (a1, .err e) => (a1, .err e)
    | (a1, .panic) => (a1, .panic)
    | (a1, .ok p) => match decryptLocal f role a1 ops with
      | (a2, .err e) => (a2, .err e)
      | (a2, .panic) => (a2, .panic)
      | (a2, .ok ps) => (a2, .ok (p :: ps))

/-- crates/mpc-tls/src/record_layer.rs:547-618 `commit`.  Decoding the key (581-583) and executing the virtual machine
(593-595) are one step that may fail, taken first. -/
def RecordLayer.commit (k : SessionFns) (env : FlushEnv) (r : RecordLayer) :
    RecordLayer × Outcome RlError (List Record × List Record) :=
  match r.state with
  | .online _ sent recv =>
    let r0 := { r with state := .error }
    if !r.encryptBuffer.isEmpty then (r0, .err .state)
    else if !env.locksFree then (r0, .err .lock)
    else
      let ops := r.decryptBuffer
      let r1 := { r0 with decryptBuffer := [] }
      if !env.mpcOk then (r1, .err .mpc)
      else match decryptLocal k.server r.role r.decrypter ops with
        | (d1, .err e) => ({ r1 with decrypter := d1 }, .err e)
        | (d1, .panic) => ({ r1 with decrypter := d1 }, .panic)
        | (d1, .ok ps) =>
          ({ r1 with
              decrypter := d1
              decryptedBuffer := r.decryptedBuffer ++ List.zipWith DecryptOp.plain ops ps
              state := .complete },
            .ok (sent, recv ++ List.zipWith DecryptOp.record ops ps))
  | _ => ({ r with state := .error }, .err .state)

/-! ## Histories -/

/-- A call on the record layer. -/
inductive RlCall where
  | pushEncrypt (typ : ContentType) (version : ProtocolVersion) (len : Nat) (plaintext : Option Bytes)
  | pushDecrypt (typ : ContentType) (version : ProtocolVersion) (nonce ciphertext tag : Bytes)
  | flush (env : FlushEnv) (isDecrypting : Bool)
  | startTraffic
  | nextEncrypted
  | nextDecrypted
  | commit (env : FlushEnv)
  deriving DecidableEq, Repr

/-- The result of a call. -/
inductive RlResult where
  | done
  | failed (e : RlError)
  | panicked
  | encrypted (r : Option EncryptedRecord)
  | decrypted (r : Option PlainRecord)
  | committed (sent recv : List Record)
  deriving DecidableEq, Repr

/-- The result of a call without output. -/
def RlResult.ofExcept : Except RlError Unit → RlResult
  | .ok () => .done
  | .error e => .failed e

/-- The result of `commit`. -/
def RlResult.ofCommit : Outcome RlError (List Record × List Record) → RlResult
  | .ok p => .committed p.1 p.2
  | .err e => .failed e
  | .panic => .panicked

/-- Performs one call. -/
def RecordLayer.step (k : SessionFns) (peer : Nat → Bytes) (r : RecordLayer) :
    RlCall → RecordLayer × RlResult
  | .pushEncrypt t v l p => let x := r.pushEncrypt t v l p; (x.1, .ofExcept x.2)
  | .pushDecrypt t v n c g => let x := r.pushDecrypt t v n c g; (x.1, .ofExcept x.2)
  | .flush env d => let x := r.flush k peer env d; (x.1, .ofExcept x.2)
  | .startTraffic => ({ r with started := true }, .done)
  | .nextEncrypted => let x := r.nextEncrypted; (x.1, .encrypted x.2)
  | .nextDecrypted => let x := r.nextDecrypted; (x.1, .decrypted x.2)
  | .commit env => let x := r.commit k env; (x.1, .ofCommit x.2)

/-- Performs calls one after the other, whatever their results, and lists the results. -/
def RecordLayer.run (k : SessionFns) (peer : Nat → Bytes) (r : RecordLayer) :
    List RlCall → RecordLayer × List RlResult
  | [] => (r, [])
  | c :: cs => let x := r.step k peer c; let y := x.1.run k peer cs; (y.1, x.2 :: y.2)

end Tlsn
