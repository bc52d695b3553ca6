import Verif.Auth.Model

/-! # A virtual machine as a graph of calls

The machine of `mpz_vm_core`, an external crate: memory is allocated, inputs are assigned, circuits are called on
parts of the memory, at any time before the machine is executed.  What the machine holds in the end is a function of
the graph and the inputs of both parties; that it computes this function is assumed. -/

namespace Tlsn.Gcm

/-- A part of the memory, in bytes: `Array<U8, N>` or `Vector<U8>`. -/
structure Ref where
  addr : Nat
  len : Nat
deriving DecidableEq, Repr

/-- `Vector::split_off`: what stays and what is split off. -/
def Ref.splitOff (r : Ref) (at' : Nat) : Ref × Ref := (⟨r.addr, at'⟩, ⟨r.addr + at', r.len - at'⟩)

/-- `Vector::truncate` -/
def Ref.truncate (r : Ref) (n : Nat) : Ref := ⟨r.addr, min n r.len⟩

/-- The circuits: the two halves of AES-128 (`AES128_KS`, `AES128_POST_KS`), `n` bytes of exclusive or, and the
identity on `n` bytes (`flatten_blocks`). -/
inductive Circ where
  | aesKs
  | aesPost
  | xor (n : Nat)
  | ident (n : Nat)
deriving DecidableEq, Repr

/-- The functions that the AES circuits of `mpz_circuits` compute: the key schedule of a key, and the block under
a key schedule. -/
structure AesCircuits where
  ks : Bytes → Vector Byte 176
  post : Bytes → Bytes → Vector Byte 16

/-- AES-128. -/
def AesCircuits.aes (A : AesCircuits) : AesFn := fun key block => A.post (A.ks key).toList block

def Circ.inLen : Circ → Nat
  | .aesKs => 16
  | .aesPost => 192
  | .xor n => 2 * n
  | .ident n => n

def Circ.outLen : Circ → Nat
  | .aesKs => 176
  | .aesPost => 16
  | .xor n => n
  | .ident n => n

/-- What a circuit computes from the bytes of its arguments, one after the other. -/
def Circ.eval (A : AesCircuits) : Circ → Bytes → Bytes
  | .aesKs, b => (A.ks b).toList
  | .aesPost, b => (A.post (b.take 176) (b.drop 176)).toList
  | .xor n, b => xorBytes (b.take n) (b.drop n)
  | .ident _, b => b

/-- A piece of the memory: an input, or the output of a call. -/
inductive Node where
  | input (len : Nat)
  | call (c : Circ) (args : List Ref)
deriving DecidableEq, Repr

def Node.len : Node → Nat
  | .input n => n
  | .call c _ => c.outLen

/-- Who assigns an input. -/
inductive Vis where
  | pub
  | priv
  | blind
deriving DecidableEq, Repr

/-- The machine of one party.  `assigned` are the input bytes that this party has assigned. -/
structure Vm where
  nodes : List Node := []
  marks : List (Ref × Vis) := []
  assigned : Nat → Option Byte := fun _ => none

/-- The size of the memory of some pieces. -/
def sizeOf (ns : List Node) : Nat := (ns.map Node.len).sum

inductive VmError where
  | assign
  | call
deriving DecidableEq, Repr

/-- `Vm::alloc`, `alloc_vec` -/
def Vm.alloc (vm : Vm) (n : Nat) : Vm × Ref := ({ vm with nodes := vm.nodes ++ [.input n] }, ⟨sizeOf vm.nodes, n⟩)

/-- `mark_public`, `mark_private`, `mark_blind` -/
def Vm.mark (vm : Vm) (r : Ref) (v : Vis) : Vm := { vm with marks := (r, v) :: vm.marks }

/-- Whether the party may assign this part: it is in a part that is marked and not blind. -/
def Vm.mayAssign (vm : Vm) (r : Ref) : Bool :=
  vm.marks.any fun m => decide (m.1.addr ≤ r.addr ∧ r.addr + r.len ≤ m.1.addr + m.1.len ∧ m.2 ≠ .blind)

/-- `assign`: an error if the party may not assign this part, if the length differs or if a byte was assigned already.
The `commit` that follows an assignment is not modelled: the machine can only be executed if all inputs are committed. -/
def Vm.assign (vm : Vm) (r : Ref) (b : Bytes) : Except VmError Vm :=
  if vm.mayAssign r = true ∧ b.length = r.len ∧ ∀ i < r.len, vm.assigned (r.addr + i) = none then
    .ok { vm with assigned := fun a => if r.addr ≤ a ∧ a < r.addr + r.len then b[a - r.addr]? else vm.assigned a }
  else .error .assign

/-- `Call::builder(..).arg(..).build()` and `call`: the arguments must have the length of the circuit's inputs. -/
def Vm.call (vm : Vm) (c : Circ) (args : List Ref) : Except VmError (Vm × Ref) :=
  if (args.map (·.len)).sum = c.inLen then
    .ok ({ vm with nodes := vm.nodes ++ [.call c args] }, ⟨sizeOf vm.nodes, c.outLen⟩)
  else .error .call

/-! ## What the memory holds -/

/-- The bytes of a part of a memory, if all are there. -/
def readRef (m : List (Option Byte)) (r : Ref) : Option Bytes :=
  if r.addr + r.len ≤ m.length then ((m.drop r.addr).take r.len).mapM id else none

/-- The memory after another piece, with the inputs `f` of both parties. -/
def stepNode (A : AesCircuits) (f : Nat → Option Byte) (m : List (Option Byte)) : Node → List (Option Byte)
  | .input n => m ++ (List.range n).map fun i => f (m.length + i)
  | .call c args =>
    match args.mapM (readRef m) with
    | some bs => if bs.flatten.length = c.inLen then m ++ (c.eval A bs.flatten).map some else m ++ List.replicate c.outLen none
    | none => m ++ List.replicate c.outLen none

/-- The memory of a machine with these pieces. -/
def memory (A : AesCircuits) (f : Nat → Option Byte) (ns : List Node) : List (Option Byte) := ns.foldl (stepNode A f) []

/-- What a part of the memory holds, with the inputs `f` of both parties. -/
def Vm.value (A : AesCircuits) (f : Nat → Option Byte) (vm : Vm) (r : Ref) : Option Bytes := readRef (memory A f vm.nodes) r

/-- The machine `vm'` is a later state of `vm`: nothing was taken away. -/
structure Later (vm vm' : Vm) : Prop where
  nodes : ∃ ns, vm'.nodes = vm.nodes ++ ns
  assigned : ∀ a b, vm.assigned a = some b → vm'.assigned a = some b

/-- The inputs `f` are those that the party has assigned, and those of the other party. -/
def Inputs (vm : Vm) (f : Nat → Option Byte) : Prop := ∀ a b, vm.assigned a = some b → f a = some b

end Tlsn.Gcm
