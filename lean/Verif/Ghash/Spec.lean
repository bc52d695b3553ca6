import Verif.Ghash.Mpc

/-! # Specification of GHASH (NIST SP 800-38D, algorithm 2) -/

namespace Tlsn

/-- `Y₀ = 0`, `Yᵢ = (Yᵢ₋₁ ⊕ Xᵢ) • H`. -/
def nistGhash (h : Gf128) (blocks : List Gf128) : Gf128 := blocks.foldl (fun y x => (y + x) * h) 0

/-- GHASH of a byte string under a 16-byte key; the string is padded with zeros to whole blocks. -/
def ghashBytes (key data : Bytes) : Bytes := (nistGhash (Gf128.ofBytes key) (blocksOf data)).toBytes

/-- The share conversions of the two parties fit together: the multiplicative shares multiply to the sum
of the additive ones, and back. -/
structure ConvertersFit (l f : Converter) (keyL keyF : Gf128) : Prop where
  toMul : l.toMul keyL * f.toMul keyF = keyL + keyF
  lenL : ∀ xs, (l.toAdd xs).length = xs.length
  lenF : ∀ xs, (f.toAdd xs).length = xs.length
  toAdd : List.zipWith (· + ·) (l.toAdd (oddShares (l.toMul keyL))) (f.toAdd (oddShares (f.toMul keyF))) =
    List.zipWith (· * ·) (oddShares (l.toMul keyL)) (oddShares (f.toMul keyF))

/-- A party's GHASH after `set_key` and `setup`. -/
def ghashOf (key : Bytes) (c : Converter) : GhashState :=
  ((GhashState.init.setKeyCall key).1.setupCall c).1

end Tlsn
