import Verif.Base.RangeSet

/-!
# Model of crates/components/deap/src/{map.rs, lib.rs}

DEAP runs a computation in an MPC VM and, at the end, again in a ZK VM.  The two VMs are parameters.  Locks, futures, contexts and
the concurrency of `flush` and `preprocess` are not modelled.
-/

namespace Tlsn.DualExec

/-- `mpz_vm_core::memory::Slice`, with `to_range` and `from_range_unchecked`: consecutive cells of one bit.  Addresses are natural
numbers, so sums do not wrap. -/
structure Slice where
  start : Nat
  len : Nat
  deriving DecidableEq, Repr

/-- The end of the range. -/
def Slice.stop (s : Slice) : Nat := s.start + s.len

/-- `rangeset`'s `is_subset` on ranges, as sets. -/
def Slice.isSubset (s c : Slice) : Bool := s.len == 0 || (decide (c.start ≤ s.start) && decide (s.stop ≤ c.stop))

/-- The documented behaviour of the slice method `binary_search_by_key` on a list of keys: the place of some equal key or, if there
is none and the keys are sorted, the place where it belongs. -/
structure BSearch where
  find : List Nat → Nat → Except Nat Nat
  ok : ∀ l x i, find l x = .ok i → l[i]? = some x
  error : ∀ l x i, l.Pairwise (· ≤ ·) → find l x = .error i →
    i ≤ l.length ∧ (∀ j y, j < i → l[j]? = some y → y < x) ∧ (∀ j y, i ≤ j → l[j]? = some y → x < y)

/-! ## map.rs -/

/-- crates/components/deap/src/map.rs:7-11 `MemoryMap`. -/
structure MemoryMap where
  mpc : List Slice
  zk : List Slice
  deriving DecidableEq, Repr

/-- `MemoryMap::default()`. -/
def MemoryMap.empty : MemoryMap := ⟨[], []⟩

/-- crates/components/deap/src/map.rs:20-34 `insert`; `none` is a panic. -/
def MemoryMap.insert (m : MemoryMap) (mpc zk : Slice) : Option MemoryMap :=
  if mpc.len ≠ zk.len then none
  else if m.mpc.getLast?.any (fun last => decide (last.stop > mpc.start)) then none
  else some ⟨m.mpc ++ [mpc], m.zk ++ [zk]⟩

/-- crates/components/deap/src/map.rs:48-58: the result for a candidate.  `panic` stands for the indexing out of bounds. -/
def MemoryMap.at (m : MemoryMap) (s : Slice) (pos : Nat) : Outcome Unit Slice :=
  match m.mpc[pos]?, m.zk[pos]? with
  | some candidate, some zk =>
    if s.isSubset candidate then .ok ⟨zk.start + (s.start - candidate.start), s.len⟩ else .err ()
  | _, _ => .panic

/-- crates/components/deap/src/map.rs:37-59 `try_get`. -/
def MemoryMap.tryGet (B : BSearch) (m : MemoryMap) (s : Slice) : Outcome Unit Slice :=
  match B.find (m.mpc.map (·.start)) s.start with
  | .ok pos => m.at s pos
  | .error 0 => .err ()
  | .error (pos + 1) => m.at s pos

/-! ## Actions -/

/-- A function that takes `&mut self` and may fail or panic. -/
def Act (σ α : Type) := σ → σ × Outcome Unit α

/-- Returns a value. -/
def Act.pure {σ α : Type} (a : α) : Act σ α := fun s => (s, .ok a)

/-- The `?` operator. -/
def Act.bind {σ α β : Type} (x : Act σ α) (f : α → Act σ β) : Act σ β := fun s =>
  match x s with
  | (s, .ok a) => f a s
  | (s, .err e) => (s, .err e)
  | (s, .panic) => (s, .panic)

instance {σ : Type} : Monad (Act σ) where
  pure := Act.pure
  bind := Act.bind

/-- A result that does not change the state. -/
def Act.lift {σ α : Type} (f : σ → Outcome Unit α) : Act σ α := fun s => (s, f s)

/-- Changes the state. -/
def Act.modify {σ : Type} (f : σ → σ) : Act σ Unit := fun s => (f s, .ok ())

/-- Does something for each element of a list. -/
def Act.forEach {σ α : Type} (f : α → Act σ Unit) : List α → Act σ Unit
  | [] => Act.pure ()
  | a :: l => (f a).bind fun _ => Act.forEach f l

/-! ## Virtual machines -/

/-- A circuit: the lengths of its inputs, that of its output, and the function. -/
structure Circuit where
  inputs : List Nat
  output : Nat
  eval : List (List Bool) → List Bool
  length : ∀ x, (eval x).length = output

/-- `mpz_vm_core::Call`. -/
structure Call where
  circ : Circuit
  args : List Slice

/-- The check of `CallBuilder::build`. -/
def Call.valid (c : Call) : Prop := c.args.map (·.len) = c.circ.inputs

instance (c : Call) : Decidable c.valid := inferInstanceAs (Decidable (_ = _))

/-- The operations of `Memory`, `View`, `Callable` and `Execute` that change a VM; `execute` is `execute` or `execute_all`. -/
inductive VmCall where
  | alloc (size : Nat)
  | assign (s : Slice) (data : List Bool)
  | commit (s : Slice)
  | markPublic (s : Slice)
  | markPrivate (s : Slice)
  | markBlind (s : Slice)
  | decode (s : Slice)
  | call (c : Call)
  | execute

/-- What the operations return: nothing, a slice of memory, or the number of a future. -/
inductive VmOut where
  | done
  | slice (s : Slice)
  | future (id : Nat)
  deriving DecidableEq, Repr

/-- A VM: its operations, `get_raw`, and `try_recv` on a future. -/
structure VmApi (σ : Type) where
  perform : VmCall → Act σ VmOut
  get : σ → Slice → Outcome Unit (Option (List Bool))
  recv : σ → Nat → Outcome Unit (Option (List Bool))

/-! ## lib.rs -/

/-- crates/components/deap/src/lib.rs:25-28 `Role`. -/
inductive Role where
  | leader
  | follower
  deriving DecidableEq, Repr

/-- crates/components/deap/src/lib.rs:32-46 `Deap`. -/
structure Deap (σ τ : Type) where
  role : Role
  mpc : σ
  zk : τ
  map : MemoryMap
  followerRanges : RangeSet
  followerInputs : List Slice
  outputs : List (Slice × Nat)

section
variable {σ τ : Type} (B : BSearch) (M : VmApi σ) (Z : VmApi τ)

/-- crates/components/deap/src/lib.rs:50-60 `new`. -/
def Deap.new (role : Role) (mpc : σ) (zk : τ) : Deap σ τ := ⟨role, mpc, zk, .empty, ∅, [], []⟩

/-- Something done on the MPC VM. -/
def onMpc {α : Type} (f : Act σ α) : Act (Deap σ τ) α := fun d => let r := f d.mpc; ({ d with mpc := r.1 }, r.2)

/-- Something done on the ZK VM. -/
def onZk {α : Type} (f : Act τ α) : Act (Deap σ τ) α := fun d => let r := f d.zk; ({ d with zk := r.1 }, r.2)

/-- `self.memory_map.try_get(slice)?`; crates/components/deap/src/lib.rs:90-92 `translate`. -/
def translate (s : Slice) : Act (Deap σ τ) Slice := .lift fun d => d.map.tryGet B s

/-- `self.memory_map.insert(mpc, zk)`. -/
def insertMap (mpc zk : Slice) : Act (Deap σ τ) Unit := fun d =>
  match d.map.insert mpc zk with
  | some map => ({ d with map }, .ok ())
  | none => (d, .panic)

/-- An operation that returns a slice. -/
def asSlice {ρ : Type} (f : Act ρ VmOut) : Act ρ Slice := do
  match ← f with
  | .slice s => pure s
  | _ => .lift fun _ => .err ()

/-- crates/components/deap/src/lib.rs:183-190 `alloc_raw`. -/
def Deap.alloc (size : Nat) : Act (Deap σ τ) VmOut := do
  let m ← onMpc (asSlice (M.perform (.alloc size)))
  let z ← onZk (asSlice (Z.perform (.alloc size)))
  insertMap m z
  pure (.slice m)

/-- crates/components/deap/src/lib.rs:196-206 `assign_raw`. -/
def Deap.assign (s : Slice) (data : List Bool) : Act (Deap σ τ) VmOut := do
  let _ ← onMpc (M.perform (.assign s data))
  let z ← translate B s
  onZk (Z.perform (.assign z data))

/-- crates/components/deap/src/lib.rs:218-223: one range of the loop of `commit_raw`. -/
def commitZk (r : Rng) : Act (Deap σ τ) Unit := do
  let z ← translate B ⟨r.1, r.2 - r.1⟩
  let _ ← onZk (Z.perform (.commit z))
  pure ()

/-- crates/components/deap/src/lib.rs:212-226 `commit_raw`. -/
def Deap.commit (s : Slice) : Act (Deap σ τ) VmOut := do
  let rest ← .lift fun d => .ok ((RangeSet.ofRange s.start s.stop).diff d.followerRanges).ranges
  Act.forEach (commitZk B Z) rest
  onMpc (M.perform (.commit s))

/-- crates/components/deap/src/lib.rs:232-241 `decode_raw`. -/
def Deap.decode (s : Slice) : Act (Deap σ τ) VmOut := do
  let z ← translate B s
  let fut ← onZk (Z.perform (.decode z))
  match fut with
  | .future id => .modify fun d => { d with outputs := d.outputs ++ [(s, id)] }
  | _ => .lift fun _ => .err ()
  onMpc (M.perform (.decode s))

/-- crates/components/deap/src/lib.rs:251-257 `mark_public_raw`. -/
def Deap.markPublic (s : Slice) : Act (Deap σ τ) VmOut := do
  let _ ← onMpc (M.perform (.markPublic s))
  let z ← translate B s
  onZk (Z.perform (.markPublic z))

/-- crates/components/deap/src/lib.rs:269-272 and 285-288: the slice is a private input of the follower, and public in the ZK VM. -/
def Deap.followerInput (s : Slice) : Act (Deap σ τ) VmOut := do
  let z ← translate B s
  let _ ← onZk (Z.perform (.markPublic z))
  .modify fun d => { d with
    followerRanges := d.followerRanges.union (RangeSet.ofRange s.start s.stop)
    followerInputs := d.followerInputs ++ [s] }
  pure .done

/-- crates/components/deap/src/lib.rs:259-277 `mark_private_raw`. -/
def Deap.markPrivate (s : Slice) : Act (Deap σ τ) VmOut := do
  let _ ← onMpc (M.perform (.markPrivate s))
  let role ← .lift fun d => .ok d.role
  match role with
  | .leader => do
    let z ← translate B s
    onZk (Z.perform (.markPrivate z))
  | .follower => Deap.followerInput B Z s

/-- crates/components/deap/src/lib.rs:279-297 `mark_blind_raw`. -/
def Deap.markBlind (s : Slice) : Act (Deap σ τ) VmOut := do
  let _ ← onMpc (M.perform (.markBlind s))
  let role ← .lift fun d => .ok d.role
  match role with
  | .leader => Deap.followerInput B Z s
  | .follower => do
    let z ← translate B s
    onZk (Z.perform (.markBlind z))

/-- crates/components/deap/src/lib.rs:309-311: the loop over the arguments. -/
def translateAll : List Slice → Act (Deap σ τ) (List Slice)
  | [] => pure []
  | s :: l => do
    let z ← translate B s
    let zs ← translateAll l
    pure (z :: zs)

/-- crates/components/deap/src/lib.rs:305-321 `call_raw`. -/
def Deap.call (c : Call) : Act (Deap σ τ) VmOut := do
  let args ← translateAll B c.args
  let zkCall : Call := ⟨c.circ, args⟩
  if zkCall.valid then pure () else .lift fun _ => .panic
  let m ← onMpc (asSlice (M.perform (.call c)))
  let z ← onZk (asSlice (Z.perform (.call zkCall)))
  insertMap m z
  pure (.slice m)

/-- The operations of a DEAP VM; crates/components/deap/src/lib.rs:369-372 `execute` only runs the MPC VM. -/
def Deap.perform : VmCall → Act (Deap σ τ) VmOut
  | .alloc size => Deap.alloc M Z size
  | .assign s data => Deap.assign B M Z s data
  | .commit s => Deap.commit B M Z s
  | .markPublic s => Deap.markPublic B M Z s
  | .markPrivate s => Deap.markPrivate B M Z s
  | .markBlind s => Deap.markBlind B M Z s
  | .decode s => Deap.decode B M Z s
  | .call c => Deap.call B M Z c
  | .execute => onMpc (M.perform .execute)

/-- crates/components/deap/src/lib.rs:120-124: asks the MPC VM for the private inputs of the follower. -/
def decodeInputs : List Slice → Act (Deap σ τ) (List (Slice × Nat))
  | [] => pure []
  | s :: l => do
    match ← onMpc (M.perform (.decode s)) with
    | .future id => do
      let rest ← decodeInputs l
      pure ((s, id) :: rest)
    | _ => .lift fun _ => .err ()

/-- crates/components/deap/src/lib.rs:129-143: one round of the loop over the inputs. -/
def publishInput (x : Slice × Nat) : Act (Deap σ τ) Unit := do
  let z ← translate B x.1
  let role ← .lift fun d => .ok d.role
  match role with
  | .leader => do
    match ← .lift fun d => M.recv d.mpc x.2 with
    | some value => do
      let _ ← onZk (Z.perform (.assign z value))
      pure ()
    | none => .lift fun _ => .panic
  | .follower => pure ()
  let _ ← onZk (Z.perform (.commit z))
  pure ()

/-- crates/components/deap/src/lib.rs:149-165: one round of the loop over the outputs. -/
def checkOutput (x : Slice × Nat) : Act (Deap σ τ) Unit := do
  match ← .lift fun d => M.get d.mpc x.1 with
  | none => pure ()
  | some mpcOutput =>
    match ← .lift fun d => Z.recv d.zk x.2 with
    | none => .lift fun _ => .panic
    | some zkOutput => if zkOutput ≠ mpcOutput then .lift fun _ => .err () else pure ()

/-- crates/components/deap/src/lib.rs:108-169 `finalize`. -/
def Deap.finalize : Act (Deap σ τ) Unit := do
  let slices ← .lift fun d => .ok d.followerInputs
  let inputs ← decodeInputs M slices
  let _ ← onMpc (M.perform .execute)
  Act.forEach (publishInput B M Z) inputs
  let _ ← onZk (Z.perform .execute)
  let role ← .lift fun d => .ok d.role
  match role with
  | .leader => pure ()
  | .follower => do
    let outputs ← .lift fun d => .ok d.outputs
    .modify fun d => { d with outputs := [] }
    Act.forEach (checkOutput M Z) outputs

end

end Tlsn.DualExec
