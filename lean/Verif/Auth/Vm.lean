import Verif.RecordLayer.Model

/-!
# The proving VM and range maps

crates/tlsn/src/map.rs, and an idealised `mpz_vm_core::Vm` (a dependency) as the code of crates/tlsn uses it.

The VM is ideal: one memory of bytes, whose cells a party assigns, leaves to the other party (`fill`), or
obtains as outputs of circuits.  The real VM evaluates circuits in `execute_all`; the model evaluates them
when they are built.  This is the same because every input of a circuit is assigned before the circuit is
built, with the exception of commitment blinders, see `allocBlinder`.  Failures of the VM itself, other than
an assignment of the wrong length, are not modelled.
-/

namespace Tlsn

/-- `mpz_memory_core::Vector<U8>` and `Array<U8, N>`: a reference to consecutive cells. -/
structure VmVec where
  addr : Nat
  len : Nat
  deriving DecidableEq, Repr

/-- `Vector::get(range)`: `None` when the range is not inside the vector. -/
def VmVec.get (v : VmVec) (lo hi : Nat) : Option VmVec :=
  if lo ≤ hi ∧ hi ≤ v.len then some ⟨v.addr + lo, hi - lo⟩ else none

/-- The operations that both parties of the VM must issue in the same order. -/
inductive VmOp where
  | alloc (len : Nat)
  | aes (key iv nonce ctr : VmVec)
  | xor (args : List VmVec)
  | hash (alg : HashAlgId) (args : List VmVec)
  | decode (v : VmVec)
  deriving DecidableEq, Repr

/-- `mark_public`, `mark_private`, `mark_blind`. -/
inductive Vis where
  | pub
  | priv
  | blind
  deriving DecidableEq, Repr

/-- One party's VM.  `fill a` is what cell `a` holds when this party does not assign it: for the verifier,
the other party's private input. -/
structure ZkVm where
  mem : Bytes
  fill : Nat → Byte
  ops : List VmOp
  marks : List (VmVec × Vis)

namespace ZkVm

/-- `vm.alloc_vec::<U8>(n)` and `vm.alloc()`. -/
def alloc (vm : ZkVm) (n : Nat) : ZkVm × VmVec :=
  ({ vm with mem := vm.mem ++ (List.range' vm.mem.length n).map vm.fill, ops := vm.ops ++ [.alloc n] },
    ⟨vm.mem.length, n⟩)

/-- `vm.mark_*(v)`. -/
def mark (vm : ZkVm) (v : VmVec) (vis : Vis) : ZkVm := { vm with marks := vm.marks ++ [(v, vis)] }

/-- `vm.assign(v, bytes)`; `none` is the error for a value of the wrong length. -/
def assign (vm : ZkVm) (v : VmVec) (b : Bytes) : Option ZkVm :=
  if b.length ≠ v.len then none
  else (writeAt vm.mem v.addr b).map fun m => { vm with mem := m }

/-- The bytes behind a reference. -/
def read (vm : ZkVm) (v : VmVec) : Bytes := (vm.mem.drop v.addr).take v.len

/-- `vm.decode(v)`, with the value the future resolves to. -/
def decode (vm : ZkVm) (v : VmVec) : ZkVm × Bytes :=
  ({ vm with ops := vm.ops ++ [.decode v] }, vm.read v)

/-- `vm.call(call)`, with the value of the circuit. -/
def call (vm : ZkVm) (op : VmOp) (out : Bytes) : ZkVm × VmVec :=
  ({ vm with mem := vm.mem ++ out, ops := vm.ops ++ [op] }, ⟨vm.mem.length, out.length⟩)

end ZkVm

/-! ## Range maps (crates/tlsn/src/map.rs) -/

/-- crates/tlsn/src/map.rs:7-9 `RangeMap<Vector<U8>>` (`ReferenceMap`,
crates/tlsn/src/transcript_internal.rs:9). -/
abbrev RangeMap := List (Nat × VmVec)

namespace RangeMap

/-- The slice method `binary_search_by` on the start indices: `Ok` with the place of an equal element, or
`Err` with the place where it would be inserted.  (The place is unique when the indices increase.) -/
def search (m : RangeMap) (x : Nat) : Except Nat Nat :=
  match (m.map (·.1)).idxOf? x with
  | some i => .ok i
  | none => .error (m.countP fun e => decide (e.1 < x))

/-- The item with the greatest start not above `x`: crates/tlsn/src/map.rs:48-52 and 62-66, followed by the indexing. -/
def locate (m : RangeMap) (x : Nat) : Option (Nat × VmVec) :=
  match m.search x with
  | .ok i => m[i]?
  | .error 0 => none
  | .error (i + 1) => m[i]?

/-- crates/tlsn/src/map.rs:30-34 `keys`. -/
def keys (m : RangeMap) : List Rng := m.map fun e => (e.1, e.1 + e.2.len)

/-- crates/tlsn/src/map.rs:42-57 `get`. -/
def get (m : RangeMap) (r : Rng) : Option VmVec :=
  if r.1 ≥ r.2 then none
  else match m.locate r.1 with
    | none => none
    | some (base, item) => item.get (r.1 - base) (r.2 - base)

/-- One step of the loop in crates/tlsn/src/map.rs:61-83; `panic` is the failed `expect`. -/
def index1 (m : RangeMap) (r : Rng) : Outcome Unit (Nat × VmVec) :=
  match m.locate r.1 with
  | none => .err ()
  | some (base, item) =>
    if r.1 < base ∨ r.2 > base + item.len then .err ()
    else match item.get (r.1 - base) (r.1 - base + (r.2 - r.1)) with
      | none => .panic
      | some s => .ok (r.1, s)

/-- crates/tlsn/src/map.rs:59-85 `index`; `err` is the result `None`. -/
def index (m : RangeMap) : List Rng → Outcome Unit RangeMap
  | [] => .ok []
  | r :: rs => do
    let e ← m.index1 r
    let t ← m.index rs
    pure (e :: t)

/-- crates/tlsn/src/map.rs:88-107 `from_iter`; `none` is the failed assertion. -/
def fromIter : Nat → List (Nat × VmVec) → Option RangeMap
  | _, [] => some []
  | pos, (i, v) :: t => if i < pos then none else (fromIter (i + v.len) t).map ((i, v) :: ·)

end RangeMap

end Tlsn
