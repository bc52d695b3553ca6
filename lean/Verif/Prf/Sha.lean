import Verif.Base.Bytes

/-!
# SHA-256 over a compression function, and HMAC

The compression function is a parameter: everything below holds for whatever function of a state and a block of 64 bytes
it is.
-/

namespace Tlsn.Hmac

/-- The `[u32; 8]` state of SHA-256. -/
abbrev HState := Vector UInt32 8

/-- The parts of SHA-256 that come from outside the crate: the initial state and `sha2::compress256` on one block. -/
structure Sha where
  iv : HState
  compress : HState → Bytes → HState

/-- The full blocks of a message; a rest shorter than a block is left out. -/
def fullBlocks (m : Bytes) : List Bytes :=
  (List.range (m.length / 64)).map fun i => (m.drop (64 * i)).take 64

/-- The compression of all full blocks of a message. -/
def Sha.absorb (S : Sha) (st : HState) (m : Bytes) : HState := (fullBlocks m).foldl S.compress st

/-- `n` zero bytes. -/
def zeros (n : Nat) : Bytes := List.replicate n 0

/-- FIPS 180-4, 5.1.1: a one bit, the least number of zero bits that fills the last block, and the length in bits. -/
def shaPadding (total : Nat) : Bytes := 0x80 :: (zeros ((119 - total % 64) % 64) ++ beBytes 8 (8 * total))

/-- crates/components/hmac-sha256/src/lib.rs:62-69 `state_to_bytes`. -/
def stateToBytes (st : HState) : Bytes := st.toList.flatMap fun w => beBytes 4 w.toNat

/-- FIPS 180-4: SHA-256 of a message. -/
def Sha.sha256 (S : Sha) (m : Bytes) : Bytes := stateToBytes (S.absorb S.iv (m ++ shaPadding m.length))

/-- RFC 2104: a key of at most 64 bytes, filled up with zeros and added to a constant. -/
def maskKey (key : Bytes) (c : Byte) : Bytes := xorBytes (key ++ zeros (64 - key.length)) (List.replicate 64 c)

/-- RFC 2104: HMAC with SHA-256, for keys of at most 64 bytes. -/
def Sha.hmac (S : Sha) (key m : Bytes) : Bytes :=
  S.sha256 (maskKey key 0x5c ++ S.sha256 (maskKey key 0x36 ++ m))

/-! ## The function crates/components/hmac-sha256/src/lib.rs:45-60 -/

/-- `BlockBuffer::digest_pad` of the block-buffer crate, called by crates/components/hmac-sha256/src/lib.rs:56-58 with the bytes that are left over. -/
def digestPad (S : Sha) (st : HState) (buf suffix : Bytes) : HState :=
  if 64 - buf.length - 1 < suffix.length then
    S.compress (S.compress st (buf ++ 0x80 :: zeros (63 - buf.length))) (zeros (64 - suffix.length) ++ suffix)
  else S.compress st (buf ++ 0x80 :: (zeros (63 - buf.length - suffix.length) ++ suffix))

/-- crates/components/hmac-sha256/src/lib.rs:45-60 `sha256`. -/
def localSha256 (S : Sha) (st : HState) (pos : Nat) (msg : Bytes) : HState :=
  digestPad S (S.absorb st msg) (msg.drop (64 * (msg.length / 64))) (beBytes 8 ((msg.length + pos) * 8))

/-! ## Lemmas -/

theorem fullBlocks_append (a b : Bytes) (h : a.length % 64 = 0) :
    fullBlocks (a ++ b) = fullBlocks a ++ fullBlocks b := by
  unfold fullBlocks
  have e : (a ++ b).length / 64 = a.length / 64 + b.length / 64 := by
    rw [List.length_append]; omega
  rw [e, List.range_add, List.map_append, List.map_map]
  congr 1
  · apply List.map_congr_left
    intro i hi
    have hi := List.mem_range.mp hi
    rw [List.drop_append_of_le_length (by omega), List.take_append_of_le_length]
    rw [List.length_drop]; omega
  · apply List.map_congr_left
    intro i _
    show List.take 64 (List.drop (64 * (a.length / 64 + i)) (a ++ b)) = _
    have : 64 * (a.length / 64 + i) = a.length + 64 * i := by omega
    rw [this, ← List.drop_drop, List.drop_left]

theorem Sha.absorb_append (S : Sha) (st : HState) (a b : Bytes) (h : a.length % 64 = 0) :
    S.absorb st (a ++ b) = S.absorb (S.absorb st a) b := by
  unfold Sha.absorb
  rw [fullBlocks_append a b h, List.foldl_append]

theorem Sha.absorb_block (S : Sha) (st : HState) (a : Bytes) (h : a.length = 64) :
    S.absorb st a = S.compress st a := by
  unfold Sha.absorb fullBlocks
  have : a.length / 64 = 1 := by omega
  rw [this]
  show S.compress st ((a.drop 0).take 64) = _
  rw [List.drop_zero, List.take_of_length_le (by omega)]

theorem Sha.absorb_short (S : Sha) (st : HState) (a : Bytes) (h : a.length < 64) : S.absorb st a = st := by
  unfold Sha.absorb fullBlocks
  simp [Nat.div_eq_of_lt h]

/-- The rest of a message after its full blocks does not matter to `absorb`. -/
theorem Sha.absorb_split (S : Sha) (st : HState) (a b : Bytes) :
    S.absorb st (a ++ b) =
      S.absorb (S.absorb st a) (a.drop (64 * (a.length / 64)) ++ b) := by
  have e : a = a.take (64 * (a.length / 64)) ++ a.drop (64 * (a.length / 64)) := (List.take_append_drop _ _).symm
  have hl : (a.take (64 * (a.length / 64))).length % 64 = 0 := by rw [List.length_take]; omega
  have h2 : S.absorb st a = S.absorb st (a.take (64 * (a.length / 64))) := by
    conv => lhs; rw [e]
    rw [S.absorb_append _ _ _ hl]
    apply S.absorb_short
    rw [List.length_drop]; omega
  rw [h2]
  conv => lhs; rw [e, List.append_assoc]
  rw [S.absorb_append _ _ _ hl]

@[simp] theorem zeros_length (n : Nat) : (zeros n).length = n := by simp [zeros]

theorem zeros_append (a b : Nat) : zeros a ++ zeros b = zeros (a + b) := by simp [zeros]

@[simp] theorem shaPadding_length (n : Nat) : (shaPadding n).length = 1 + ((119 - n % 64) % 64) + 8 := by
  simp [shaPadding]; omega

@[simp] theorem stateToBytes_length (st : HState) : (stateToBytes st).length = 32 := by
  unfold stateToBytes
  have h : ∀ l : List UInt32, (l.flatMap fun w => beBytes 4 w.toNat).length = 4 * l.length := by
    intro l
    induction l with
    | nil => rfl
    | cons a l ih => simp [List.flatMap_cons, ih]; omega
  rw [h]; simp

theorem Sha.sha256_length (S : Sha) (m : Bytes) : (S.sha256 m).length = 32 := by simp [Sha.sha256]

theorem Sha.hmac_length (S : Sha) (k m : Bytes) : (S.hmac k m).length = 32 := S.sha256_length _

theorem maskKey_length (k : Bytes) (c : Byte) (h : k.length ≤ 64) : (maskKey k c).length = 64 := by
  simp [maskKey]; omega

/-- The local function is SHA-256 continued from a state reached after `pos` bytes. -/
theorem localSha256_eq (S : Sha) (st : HState) (pos : Nat) (msg : Bytes) (hp : pos % 64 = 0) :
    localSha256 S st pos msg = S.absorb st (msg ++ shaPadding (msg.length + pos)) := by
  rw [S.absorb_split]
  unfold localSha256
  generalize hr : msg.drop (64 * (msg.length / 64)) = r
  have hrl : r.length = msg.length % 64 := by rw [← hr, List.length_drop]; omega
  have hmod : (msg.length + pos) % 64 = r.length := by omega
  have hlt : r.length < 64 := by omega
  generalize S.absorb st msg = st1
  unfold digestPad shaPadding
  rw [hmod, Nat.mul_comm (msg.length + pos) 8, beBytes_length]
  generalize hs : beBytes 8 (8 * (msg.length + pos)) = sfx
  have hsl : sfx.length = 8 := by rw [← hs, beBytes_length]
  by_cases hc : 64 - r.length - 1 < 8
  · rw [if_pos hc]
    have e : r ++ 0x80 :: (zeros ((119 - r.length) % 64) ++ sfx) =
        (r ++ 0x80 :: zeros (63 - r.length)) ++ (zeros (64 - 8) ++ sfx) := by
      have : zeros ((119 - r.length) % 64) = zeros (63 - r.length) ++ zeros (64 - 8) := by
        rw [zeros_append]; congr 1; omega
      rw [this]; simp
    rw [e, S.absorb_append _ _ _ (by simp; omega), S.absorb_block _ _ (by simp; omega),
      S.absorb_block _ _ (by simp; omega)]
  · rw [if_neg hc, S.absorb_block _ _ (by simp; omega)]
    congr 4
    congr 1
    omega

/-- HMAC from the state after the masked key, as the crate computes it. -/
theorem Sha.sha256_from_state (S : Sha) (kp m : Bytes) (h : kp.length = 64) :
    S.sha256 (kp ++ m) = stateToBytes (S.absorb (S.absorb S.iv kp) (m ++ shaPadding (m.length + 64))) := by
  unfold Sha.sha256
  rw [List.append_assoc, S.absorb_append _ _ _ (by omega), List.length_append, h, Nat.add_comm 64]

end Tlsn.Hmac
