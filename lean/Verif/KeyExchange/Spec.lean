import Verif.KeyExchange.Model

/-! # Specification of the key exchange -/

namespace Tlsn.Kex

/-- The x coordinate of a point that is not the identity. -/
def xOf : Point → Option Fp
  | .zero => none
  | .some x _ _ => some x

/-- A correct share conversion: shares that add up become shares that multiply to the same values, and back.  Nothing is
assumed about how the shares are chosen. -/
structure Conv.Correct (C : Conv) : Prop where
  toMultiplicative : ∀ xs ys, xs.length = ys.length → ∃ us vs, C.toMultiplicative xs ys = some (us, vs) ∧
    us.length = xs.length ∧ vs.length = xs.length ∧ List.zipWith (· * ·) us vs = List.zipWith (· + ·) xs ys
  toAdditive : ∀ xs ys, xs.length = ys.length → ∃ us vs, C.toAdditive xs ys = some (us, vs) ∧
    us.length = xs.length ∧ vs.length = xs.length ∧ List.zipWith (· + ·) us vs = List.zipWith (· * ·) xs ys

end Tlsn.Kex
