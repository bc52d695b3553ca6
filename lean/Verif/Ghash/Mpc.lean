import Verif.Ghash.Field
import Verif.Ghash.Model

/-!
# Model of the two-party GHASH

`crates/mpc-tls/src/record_layer/aead/ghash.rs`, `ghash/compute.rs`, `ghash/verify.rs` and
`crates/mpc-tls/src/decode.rs`.  The share conversions of the external crate `mpz_share_conversion` are
parameters: what a party gets back for what it puts in.
-/

namespace Tlsn

/-- `Gf2_128::new(u128::from_be_bytes(h).reverse_bits())`, crates/mpc-tls/src/record_layer/aead/ghash.rs:118-122; the same map for a block,
crates/mpc-tls/src/record_layer/aead/ghash.rs:212-228 (`Gf2_128::from(block.reverse_bits())`). -/
def Gf128.ofBytes (b : Bytes) : Gf128 := ⟨(BitVec.ofNat 128 (beNat b)).reverse⟩

/-- `tag.reverse_bits().to_bytes()`, crates/mpc-tls/src/record_layer/aead/ghash.rs:231. -/
def Gf128.toBytes (a : Gf128) : Bytes := beBytes 16 a.bits.reverse.toNat

/-- crates/mpc-tls/src/record_layer/aead/ghash.rs:19 `MAX_POWER`. -/
def maxPower : Nat := 1026

/-- The `scan` of crates/mpc-tls/src/record_layer/aead/ghash.rs:154-159: `n` powers starting with `acc`. -/
def scanPowers (m : Gf128) : Nat → Gf128 → List Gf128
  | 0, _ => []
  | n + 1, acc => acc :: scanPowers m n (acc * m)

/-- `step_by(2)`, crates/mpc-tls/src/record_layer/aead/ghash.rs:163. -/
def stepBy2 {α : Type} : List α → List α
  | [] => []
  | [a] => [a]
  | a :: _ :: t => a :: stepBy2 t

/-- crates/mpc-tls/src/record_layer/aead/ghash.rs:151-164: the odd powers of the multiplicative key share. -/
def oddShares (m : Gf128) : List Gf128 := stepBy2 ((scanPowers m maxPower m).drop 2)

/-- One iteration of crates/mpc-tls/src/record_layer/aead/ghash.rs:247-257; `none` is the panic of an index out of bounds. -/
def shareStep (odd : List Gf128) (st : List Gf128 × Nat) (i : Nat) : Option (List Gf128 × Nat) :=
  if i % 2 = 0 then (st.1[i / 2 - 1]?).map fun base => (st.1 ++ [base * base], st.2)
  else (odd[st.2]?).map fun o => (st.1 ++ [o], st.2 + 1)

/-- crates/mpc-tls/src/record_layer/aead/ghash.rs:240-260 `compute_shares`. -/
def computeShares (key : Gf128) (odd : List Gf128) : Option (List Gf128) :=
  ((List.range' 2 (maxPower - 1)).foldlM (shareStep odd) ([key], 0)).map (·.1)

/-- crates/mpc-tls/src/record_layer/aead/ghash.rs:46-52 `State`. -/
inductive GhashState where
  | init
  | setKey (key : Gf128)
  | ready (shares : List Gf128)
  | error
  deriving DecidableEq

/-- Errors of GHASH (crates/mpc-tls/src/record_layer/aead/ghash.rs:317-328). -/
inductive GhashError where
  | keyLength
  | state
  | inputLength
  deriving DecidableEq, Repr

/-- crates/mpc-tls/src/record_layer/aead/ghash.rs:106-128 `set_key`. -/
def GhashState.setKeyCall (s : GhashState) (key : Bytes) : GhashState × Outcome GhashError Unit :=
  if key.length ≠ 16 then (s, .err .keyLength)
  else match s with
    | .init => (.setKey (Gf128.ofBytes key), .ok ())
    | _ => (.error, .err .state)

/-- What one party receives from the share converter: its multiplicative share for its additive share, and
its additive shares for its multiplicative shares. -/
structure Converter where
  toMul : Gf128 → Gf128
  toAdd : List Gf128 → List Gf128

/-- crates/mpc-tls/src/record_layer/aead/ghash.rs:130-188 `setup`, where the conversions succeed. -/
def GhashState.setupCall (s : GhashState) (c : Converter) : GhashState × Outcome GhashError Unit :=
  match s with
  | .setKey key => match computeShares key (c.toAdd (oddShares (c.toMul key))) with
    | none => (.error, .panic)
    | some shares => (.ready shares, .ok ())
  | _ => (.error, .err .state)

/-- `chunks_exact(16)` of the padded input, crates/mpc-tls/src/record_layer/aead/ghash.rs:206-219. -/
def blocksOf (data : Bytes) : List Gf128 :=
  (List.range (blockCount data.length)).map fun i => Gf128.ofBytes (((padBlocks data).drop (16 * i)).take 16)

/-- The fold of crates/mpc-tls/src/record_layer/aead/ghash.rs:222-229. -/
def dotFrom (acc : Gf128) (blocks shares : List Gf128) : Gf128 :=
  (blocks.zip shares).foldl (fun acc x => acc + x.1 * x.2) acc

/-- crates/mpc-tls/src/record_layer/aead/ghash.rs:190-232 `compute`. -/
def GhashState.compute (s : GhashState) (input : Bytes) : Outcome GhashError Bytes :=
  match s with
  | .ready shares =>
    if blockCount input.length > maxPower then .err .inputLength
    else
      let blocks := blocksOf input
      .ok (dotFrom 0 blocks (shares.reverse.drop (shares.length - blocks.length))).toBytes
  | _ => .err .state

/-! ## One-time pad sharing -/

/-- crates/mpc-tls/src/decode.rs:46-52 and 69: the leader's share is its pad. -/
def otpLeader (otpL : Bytes) : Bytes := otpL

/-- crates/mpc-tls/src/decode.rs:53-59 and 70-74: the follower gets the value masked with both pads and removes its own. -/
def otpFollower (value otpL otpF : Bytes) : Bytes :=
  xorBytes (xorBytes (xorBytes value otpL) otpF) otpF

/-! ## Tags -/

/-- One record's part of `ComputeTagData`/`VerifyTagData` as one party sees it: its share of the counter
block and the public data (crates/mpc-tls/src/record_layer/aead/ghash/compute.rs:17-21, crates/mpc-tls/src/record_layer/aead/ghash/verify.rs:17-22). -/
structure TagInput where
  j0 : Bytes
  aad : Bytes
  ciphertext : Bytes
  deriving DecidableEq, Repr

/-- crates/mpc-tls/src/record_layer/aead/ghash/compute.rs:71-84 and crates/mpc-tls/src/record_layer/aead/ghash/verify.rs:68-80: one share per record. -/
def tagShare (g : GhashState) (d : TagInput) : Outcome GhashError Bytes :=
  match g.compute (buildGhashData d.aad d.ciphertext) with
  | .ok s => .ok (xorBytes d.j0 s)
  | .err e => .err e
  | .panic => .panic

/-- The loop over the records. -/
def tagShares (g : GhashState) : List TagInput → Outcome GhashError (List Bytes)
  | [] => .ok []
  | d :: ds => match tagShare g d with
    | .err e => .err e
    | .panic => .panic
    | .ok s => match tagShares g ds with
      | .err e => .err e
      | .panic => .panic
      | .ok ss => .ok (s :: ss)

/-- crates/mpc-tls/src/record_layer/aead/ghash/compute.rs:86-103, the leader: combines its shares with the follower's message; `none` is the error of
a different number of shares. -/
def leaderTags (mine peer : List Bytes) : Option (List Bytes) :=
  if peer.length ≠ mine.length then none else some (List.zipWith xorBytes mine peer)

/-- crates/mpc-tls/src/record_layer/aead/ghash/verify.rs:84-101, the leader: the tags must be the combined shares. -/
def leaderVerifies (mine peer tags : List Bytes) : Bool :=
  match leaderTags mine peer with
  | none => false
  | some expected => decide (tags = expected)

end Tlsn
