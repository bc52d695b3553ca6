import Verif.Tls.Enums

/-! # Additional data and GHASH input -/

namespace Tlsn

/-- crates/tls-core/src/cipher.rs:3-10 `make_tls12_aad` (`len as u16` truncates). -/
def makeTls12Aad (seq : Nat) (typ : ContentType) (version : ProtocolVersion) (len : Nat) : Bytes :=
  beBytes 8 seq ++ ([typ.getU8] ++ (beBytes 2 version.getU16.toNat ++ beBytes 2 len))

/-- Number of 16-byte blocks: crates/mpc-tls/src/record_layer/aead/ghash.rs:196, 285, 288-289. -/
def blockCount (n : Nat) : Nat := n / 16 + (if n % 16 = 0 then 0 else 1)

/-- `data.resize(block_count * 16, 0)`, crates/mpc-tls/src/record_layer/aead/ghash.rs:209, 286, 290. -/
def padBlocks (b : Bytes) : Bytes := b ++ List.replicate (blockCount b.length * 16 - b.length) 0

/-- crates/mpc-tls/src/record_layer/aead/ghash.rs:278-298 `build_ghash_data`.  The length block is
`((aad_bits as u128) << 64) + text_bits` with `u64` bit lengths. -/
def buildGhashData (aad ciphertext : Bytes) : Bytes :=
  padBlocks aad ++ (padBlocks ciphertext ++
    beBytes 16 ((aad.length * 8 % 2 ^ 64) * 2 ^ 64 + ciphertext.length * 8 % 2 ^ 64))

end Tlsn
