import Verif.Auth.Vm

/-!
# Model of crates/tlsn/src/transcript_internal/auth.rs

AES-128 is a parameter: `aes key block`.
-/

namespace Tlsn

/-- AES-128 on one block. -/
abbrev AesFn := Bytes → Bytes → Vector Byte 16

/-- crates/tlsn/src/transcript_internal/auth.rs:459-468 `ErrorRepr`; decodings are available when the proof is checked, so `MissingDecoding`
does not occur. -/
inductive AuthError where
  | vm
  | outOfBounds
  | invalidPlaintext
  deriving DecidableEq, Repr

/-- crates/tlsn/src/transcript_internal/auth.rs:336-339 `RecordParams`, made from a record in 341-348. -/
structure RecordParams where
  nonce : Bytes
  len : Nat
  deriving DecidableEq, Repr

/-- crates/tlsn/src/transcript_internal/auth.rs:341-348 `RecordParams::from_iter`. -/
def recordParams (records : List Record) : List RecordParams :=
  records.map fun r => ⟨r.nonce, r.ciphertext.length⟩

/-- `vm.assign(..)?` -/
def ZkVm.assignE (vm : ZkVm) (v : VmVec) (b : Bytes) : Outcome AuthError ZkVm :=
  match vm.assign v b with
  | none => .err .vm
  | some vm => .ok vm

/-- The chunks of a vector for a list of ranges (crates/tlsn/src/transcript_internal/auth.rs:177-184 and 213-220). -/
def chunks (v : VmVec) : List Rng → Nat → Option (List (Nat × VmVec))
  | [], _ => some []
  | r :: rs, pos => do
    let c ← v.get pos (pos + (r.2 - r.1))
    let t ← chunks v rs (pos + (r.2 - r.1))
    pure ((r.1, c) :: t)

/-- `RangeMap::from_iter` of the chunks; `none` is a panic (crates/tlsn/src/transcript_internal/auth.rs:174-184 and 212-219). -/
def chunkMap (v : VmVec) (ranges : List Rng) : Option RangeMap :=
  (chunks v ranges 0).bind (RangeMap.fromIter 0)

/-- crates/tlsn/src/transcript_internal/auth.rs:165-185 `alloc_plaintext`. -/
def allocPlaintext (vm : ZkVm) (ranges : RangeSet) : Outcome AuthError (ZkVm × RangeMap) :=
  if ranges.len = 0 then .ok (vm, [])
  else match chunkMap (vm.alloc ranges.len).2 ranges.ranges with
    | none => .panic
    | some m => .ok ((vm.alloc ranges.len).1, m)

/-- crates/tlsn/src/transcript_internal/auth.rs:291-305 `alloc_explicit_nonce`. -/
def allocNonce (vm : ZkVm) (nonce : Bytes) : Outcome AuthError (ZkVm × VmVec) := do
  let a := vm.alloc 8
  let vm ← (a.1.mark a.2 .pub).assignE a.2 nonce
  pure (vm, a.2)

/-- crates/tlsn/src/transcript_internal/auth.rs:307-334 `alloc_block`.  `START_CTR + block as u32` wraps modulo 2^32. -/
def allocBlock (aes : AesFn) (vm : ZkVm) (key iv nonce : VmVec) (block : Nat) :
    Outcome AuthError (ZkVm × VmVec) := do
  let a := vm.alloc 4
  let vm ← (a.1.mark a.2 .pub).assignE a.2 (beBytes 4 (2 + block))
  pure (vm.call (.aes key iv nonce a.2)
    (aes (vm.read key) (vm.read iv ++ (vm.read nonce ++ vm.read a.2))).toList)

/-- The nonce of the current record, allocated when first needed (crates/tlsn/src/transcript_internal/auth.rs:249-255). -/
def nonceFor (vm : ZkVm) (nonce : Bytes) : Option VmVec → Outcome AuthError (ZkVm × VmVec)
  | some v => .ok (vm, v)
  | none => allocNonce vm nonce

/-- The keystream block with number `n` (crates/tlsn/src/transcript_internal/auth.rs:259-267).  `current_block.take()` empties the cache, which
is only refilled when a new block is made. -/
def blockFor (aes : AesFn) (vm : ZkVm) (key iv nonce : VmVec) (n : Nat) (cur : Option (Nat × VmVec)) :
    Outcome AuthError (ZkVm × VmVec × Option (Nat × VmVec)) :=
  if cur.map (·.1) = some n then .ok (vm, (cur.map (·.2)).getD ⟨0, 0⟩, none)
  else match allocBlock aes vm key iv nonce n with
    | .ok (vm, b) => .ok (vm, b, some (n, b))
    | .err e => .err e
    | .panic => .panic

/-- State of the loop of `alloc_keystream`: the ranges still to do (`current_range` in front of
`range_iter`) and the keystream so far (crates/tlsn/src/transcript_internal/auth.rs:228-236). -/
structure KsState where
  vm : ZkVm
  work : List Rng
  out : List VmVec

/-- The inner `loop` of crates/tlsn/src/transcript_internal/auth.rs:236-284 for one record at `pos`.  The first argument bounds the number of
rounds; running out of it is a panic, and `keystreamLoop_spec` shows that this does not happen.  The
Boolean result says whether all ranges are done. -/
def recordLoop (aes : AesFn) (key iv : VmVec) (rec : RecordParams) (pos : Nat) :
    Nat → KsState → Option VmVec → Option (Nat × VmVec) → Outcome AuthError (KsState × Bool)
  | 0, _, _, _ => .panic
  | fuel + 1, st, nonce, cur =>
    match st.work with
    | [] => .ok (st, true)
    | (a, b) :: rest =>
      if a ≥ pos + rec.len then .ok (st, false)
      else
        match nonceFor st.vm rec.nonce nonce with
        | .err e => .err e
        | .panic => .panic
        | .ok (vm, nv) =>
          match blockFor aes vm key iv nv ((a - pos) / 16) cur with
          | .err e => .err e
          | .panic => .panic
          | .ok (vm, blk, cur) =>
            let start := (a - pos) % 16
            let len := min (min b (pos + rec.len) - a) (16 - start)
            match blk.get start (start + len) with
            | none => .panic
            | some piece =>
              recordLoop aes key iv rec pos fuel
                { vm, work := if a + len < b then (a + len, b) :: rest else rest, out := st.out ++ [piece] }
                (some nv) cur

/-- The number of rounds given to `recordLoop`. -/
def ksFuel (work : List Rng) : Nat := (work.map fun r => r.2 - r.1 + 1).sum + 1

/-- crates/tlsn/src/transcript_internal/auth.rs:222-289 `alloc_keystream`: the loop over the records. -/
def keystreamLoop (aes : AesFn) (key iv : VmVec) :
    Nat → List RecordParams → KsState → Outcome AuthError KsState
  | _, [], _ => .err .outOfBounds
  | pos, rec :: recs, st =>
    match recordLoop aes key iv rec pos (ksFuel st.work) st none none with
    | .err e => .err e
    | .panic => .panic
    | .ok (st, true) => .ok st
    | .ok (st, false) => keystreamLoop aes key iv (pos + rec.len) recs st

/-- crates/tlsn/src/transcript_internal/auth.rs:222-289 `alloc_keystream`. -/
def allocKeystream (aes : AesFn) (vm : ZkVm) (key iv : VmVec) (ranges : List Rng)
    (records : List RecordParams) : Outcome AuthError (ZkVm × List VmVec) := do
  let st ← keystreamLoop aes key iv 0 records ⟨vm, ranges, []⟩
  pure (st.vm, st.out)

/-- The call of the circuit `xor(n * 8)` (crates/tlsn/src/transcript_internal/auth.rs:202-211).  Building the call panics unless the arguments
have exactly the size of the circuit's two inputs. -/
def xorCall (vm : ZkVm) (n : Nat) (args : List VmVec) : Option (ZkVm × VmVec) :=
  let data := args.flatMap vm.read
  if data.length = n + n then
    some (vm.call (.xor args) (xorBytes (data.take n) (data.drop n)))
  else none

/-- crates/tlsn/src/transcript_internal/auth.rs:187-221 `alloc_ciphertext`. -/
def allocCiphertext (aes : AesFn) (vm : ZkVm) (key iv : VmVec) (plaintext : RangeMap)
    (records : List RecordParams) : Outcome AuthError (ZkVm × RangeMap) :=
  if plaintext.isEmpty then .ok (vm, [])
  else
    let ranges := RangeSet.ofRanges plaintext.keys
    match allocKeystream aes vm key iv ranges.ranges records with
    | .err e => .err e
    | .panic => .panic
    | .ok (vm, ks) =>
      match xorCall vm ranges.len (plaintext.map (·.2) ++ ks) with
      | none => .panic
      | some (vm, ct) => match chunkMap ct ranges.ranges with
        | none => .panic
        | some m => .ok (vm, m)

/-- `reveal == (0..plaintext.len())` (crates/tlsn/src/transcript_internal/auth.rs:29, 95).  Whether the empty set equals `0..0` is a detail of
the `rangeset` crate: `e`. -/
def isRevealAll (e : Bool) (reveal : RangeSet) (n : Nat) : Bool :=
  if n = 0 then e && reveal.isEmpty else decide (reveal.ranges = [(0, n)])

/-- crates/tlsn/src/transcript_internal/auth.rs:31-36 and 97-102: the ranges that get VM references. -/
def allocRanges (e : Bool) (reveal commit : RangeSet) (n : Nat) : RangeSet :=
  if isRevealAll e reveal n then commit else commit.union reveal

/-- `for (_, slice) in refs { vm.mark_..(slice) }` (crates/tlsn/src/transcript_internal/auth.rs:45-68, 111-114, 127-142). -/
def markAll (vm : ZkVm) (vis : Vis) (refs : RangeMap) : ZkVm :=
  refs.foldl (fun vm e => vm.mark e.2 vis) vm

/-- `for (range, slice) in refs { vm.assign(slice, plaintext[range].to_vec())? }` (crates/tlsn/src/transcript_internal/auth.rs:47-50, 70-73, 113-116, 141-143). -/
def assignAll (plaintext : Bytes) : RangeMap → ZkVm → Outcome AuthError ZkVm
  | [], vm => .ok vm
  | (i, v) :: t, vm =>
    match slice plaintext i (i + v.len) with
    | none => .panic
    | some b => do
      let vm ← vm.assignE v b
      assignAll plaintext t vm

/-- `for (_, slice) in refs { vm.decode(slice) }` (crates/tlsn/src/transcript_internal/auth.rs:76-78, 151-157). -/
def decodeAll (vm : ZkVm) : List VmVec → ZkVm × List Bytes
  | [] => (vm, [])
  | v :: t =>
    let d := vm.decode v
    let r := decodeAll d.1 t
    (r.1, d.2 :: r.2)

/-- `refs.index(set).expect("all ranges are allocated")` (crates/tlsn/src/transcript_internal/auth.rs:53-55, 61-63, 127-129, 135-137). -/
def indexE (refs : RangeMap) (s : RangeSet) : Outcome AuthError RangeMap :=
  match refs.index s.ranges with
  | .ok m => .ok m
  | _ => .panic

/-- crates/tlsn/src/transcript_internal/auth.rs:20-82 `prove_plaintext`. -/
def provePlaintext (aes : AesFn) (e : Bool) (vm : ZkVm) (key iv : VmVec) (plaintext : Bytes)
    (records : List Record) (reveal commit : RangeSet) : Outcome AuthError (ZkVm × RangeMap) := do
  let (vm, refs) ← allocPlaintext vm (allocRanges e reveal commit plaintext.length)
  if isRevealAll e reveal plaintext.length then
    let vm := ((vm.decode key).1.decode iv).1
    let vm ← assignAll plaintext refs (markAll vm .pub refs)
    pure (vm, refs)
  else
    let priv ← indexE refs (commit.diff reveal)
    let pub ← indexE refs reveal
    let vm ← assignAll plaintext refs (markAll (markAll vm .priv priv) .pub pub)
    let (vm, ct) ← allocCiphertext aes vm key iv refs (recordParams records)
    pure ((decodeAll vm (ct.map (·.2))).1, refs)

/-- crates/tlsn/src/transcript_internal/auth.rs:391-404 `ProofInner`; a pair of `WithZk` is (expected, actual). -/
inductive PlaintextProof where
  | withKey (key iv : Bytes) (records : List RecordParams) (plaintext ciphertext : Bytes)
  | withZk (ciphertexts : List (Bytes × Bytes))

/-- The expected ciphertext slices (crates/tlsn/src/transcript_internal/auth.rs:151-157); `none` is the panic of `ciphertext[range]`. -/
def expectedSlices (ciphertext : Bytes) : RangeMap → Option (List Bytes)
  | [] => some []
  | (i, v) :: t => do
    let s ← slice ciphertext i (i + v.len)
    let r ← expectedSlices ciphertext t
    pure (s :: r)

/-- crates/tlsn/src/transcript_internal/auth.rs:85-163 `verify_plaintext`. -/
def verifyPlaintext (aes : AesFn) (e : Bool) (vm : ZkVm) (key iv : VmVec) (plaintext ciphertext : Bytes)
    (records : List Record) (reveal commit : RangeSet) :
    Outcome AuthError (ZkVm × RangeMap × PlaintextProof) := do
  let (vm, refs) ← allocPlaintext vm (allocRanges e reveal commit plaintext.length)
  if isRevealAll e reveal plaintext.length then
    let k := vm.decode key
    let i := k.1.decode iv
    let vm ← assignAll plaintext refs (markAll i.1 .pub refs)
    pure (vm, refs, .withKey k.2 i.2 (recordParams records) plaintext ciphertext)
  else
    let priv ← indexE refs (commit.diff reveal)
    let pub ← indexE refs reveal
    let vm ← assignAll plaintext pub (markAll (markAll vm .blind priv) .pub pub)
    let (vm, ct) ← allocCiphertext aes vm key iv refs (recordParams records)
    let expected ← Outcome.ofPanic (expectedSlices ciphertext ct)
    let d := decodeAll vm (ct.map (·.2))
    pure (d.1, refs, .withZk (expected.zip d.2))

/-- AES-CTR from counter 2 (crates/tlsn/src/transcript_internal/auth.rs:406-418 `aes_ctr_apply_keystream`); `none` is the panic of
`explicit_nonce[..8]`.  The counter wraps modulo 2^32. -/
def aesCtrApply (aes : AesFn) (key iv nonce input : Bytes) : Option Bytes :=
  if nonce.length < 8 then none
  else some (input.mapIdx fun i b =>
    b ^^^ (aes key (iv ++ (nonce.take 8 ++ beBytes 4 (2 + i / 16))))[i % 16]'(Nat.mod_lt _ (by decide)))

/-- crates/tlsn/src/transcript_internal/auth.rs:420-443 `verify_plaintext_with_key`. -/
def verifyWithKey (aes : AesFn) (key iv plaintext ciphertext : Bytes) :
    Nat → List RecordParams → Outcome AuthError Unit
  | _, [] => .ok ()
  | pos, rec :: recs =>
    match slice plaintext pos (pos + rec.len) with
    | none => .panic
    | some text => match aesCtrApply aes key iv rec.nonce text with
      | none => .panic
      | some text => match slice ciphertext pos (pos + rec.len) with
        | none => .panic
        | some c =>
          if text ≠ c then .err .invalidPlaintext
          else verifyWithKey aes key iv plaintext ciphertext (pos + rec.len) recs

/-- crates/tlsn/src/transcript_internal/auth.rs:354-389 `PlaintextProof::verify`. -/
def PlaintextProof.verify (aes : AesFn) : PlaintextProof → Outcome AuthError Unit
  | .withKey key iv records plaintext ciphertext =>
    verifyWithKey aes key iv plaintext ciphertext 0 records
  | .withZk ciphertexts =>
    if ciphertexts.all fun p => decide (p.2 = p.1) then .ok () else .err .invalidPlaintext

end Tlsn
