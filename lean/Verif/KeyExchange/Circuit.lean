import Verif.Base.Bytes

/-!
# The circuit that combines the shares of the pre-master secret

Model of crates/components/key-exchange/src/circuit.rs on lists of wires.  A byte of the machine is eight wires, the
least significant bit first.
-/

namespace Tlsn.Kex

/-- The wires of a byte, least significant bit first. -/
def byteBits (b : Byte) : List Bool := (List.range 8).map fun i => b.toNat.testBit i

/-- The wires of an array of bytes, crates/components/key-exchange/src/circuit.rs:24-29 (`32 * 8` inputs each). -/
def bitsOf (bs : Bytes) : List Bool := bs.flatMap byteBits

/-- The number on a list of wires, least significant first. -/
def bitsNat : List Bool → Nat
  | [] => 0
  | b :: l => b.toNat + 2 * bitsNat l

/-- `chunks_exact(8)`. -/
def chunks8 : List Bool → List (List Bool)
  | a :: b :: c :: d :: e :: f :: g :: h :: l => [a, b, c, d, e, f, g, h] :: chunks8 l
  | _ => []

/-- The bytes on the wires of an array. -/
def bytesOf (w : List Bool) : Bytes := (chunks8 w).map fun c => UInt8.ofNat (bitsNat c)

/-- crates/components/key-exchange/src/circuit.rs:32-40 `to_little_endian`; the loops of crates/components/key-exchange/src/circuit.rs:50-54 and 64-68 that add the outputs are the same
function. -/
def toLittleEndian (w : List Bool) : List Bool := (chunks8 w).reverse.flatten

/-- `mpz_circuits::ops::add_mod`, which is outside the repository: a circuit on 256 wires that adds two numbers below the
modulus. -/
structure AddMod where
  run : List Bool → List Bool → List Bool → List Bool
  length : ∀ a b m, (run a b m).length = 256
  spec : ∀ a b m, a.length = 256 → b.length = 256 → m.length = 256 → bitsNat a < bitsNat m → bitsNat b < bitsNat m →
    bitsNat (run a b m) = (bitsNat a + bitsNat b) % bitsNat m

/-- crates/components/key-exchange/src/circuit.rs:21-75 `build_pms_circuit`: the outputs in the order in which they are added. -/
def pmsCircuit (A : AddMod) (a0 b0 a1 b1 modulus : List Bool) : List Bool :=
  let pms0 := A.run (toLittleEndian a0) (toLittleEndian b0) (toLittleEndian modulus)
  let pms1 := A.run (toLittleEndian a1) (toLittleEndian b1) (toLittleEndian modulus)
  toLittleEndian pms0 ++ toLittleEndian pms1 ++ List.zipWith xor pms0 pms1

/-- The call of crates/components/key-exchange/src/exchange.rs:178-189: the arguments are arrays of 32 bytes, and so are the three outputs. -/
def pmsCall (A : AddMod) (a0 b0 a1 b1 modulus : Bytes) : Bytes × Bytes × Bytes :=
  let out := pmsCircuit A (bitsOf a0) (bitsOf b0) (bitsOf a1) (bitsOf b1) (bitsOf modulus)
  (bytesOf (out.take 256), bytesOf ((out.drop 256).take 256), bytesOf ((out.drop 512).take 256))

end Tlsn.Kex
