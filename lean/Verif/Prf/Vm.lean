import Verif.Prf.Sha

/-!
# An ideal virtual machine

`mpz_vm_core` is outside the repository.  It is modelled as an ideal functionality that both parties share: a reference
denotes the value it has once the inputs it depends on have been committed.
-/

namespace Tlsn.Hmac

/-- The inputs of the machine that have been assigned and committed. -/
abbrev Env := Nat → Option Bytes

/-- Inputs are never taken back. -/
def Env.Le (a b : Env) : Prop := ∀ i v, a i = some v → b i = some v

/-- A reference into the memory of the machine: its value, if the inputs it depends on are known.  Knowing more inputs
does not change a value. -/
structure Ref (α : Type) where
  run : Env → Option α
  mono : ∀ a b v, a.Le b → run a = some v → run b = some v

/-- A constant that both parties know.  The code allocates it, marks it public, assigns and commits it. -/
def Ref.const {α : Type} (a : α) : Ref α := ⟨fun _ => some a, fun _ _ _ _ h => h⟩

/-- The value of an input of a given length. -/
def Ref.input (id len : Nat) : Ref Bytes :=
  ⟨fun e => (e id).filter (·.length == len), by
    intro a b v h hv
    rw [Option.filter_eq_some_iff] at hv ⊢
    exact ⟨h id v hv.1, hv.2⟩⟩

/-- The output of a circuit with one input. -/
def Ref.map {α β : Type} (f : α → β) (r : Ref α) : Ref β :=
  ⟨fun e => (r.run e).map f, by
    intro a b v h hv
    rw [Option.map_eq_some_iff] at hv ⊢
    obtain ⟨x, hx, rfl⟩ := hv
    exact ⟨x, r.mono a b x h hx, rfl⟩⟩

/-- The output of a circuit with two inputs. -/
def Ref.map2 {α β γ : Type} (f : α → β → γ) (r : Ref α) (s : Ref β) : Ref γ :=
  ⟨fun e => (r.run e).bind fun x => (s.run e).map (f x), by
    intro a b v h hv
    rw [Option.bind_eq_some_iff] at hv ⊢
    obtain ⟨x, hx, hv⟩ := hv
    rw [Option.map_eq_some_iff] at hv
    obtain ⟨y, hy, rfl⟩ := hv
    exact ⟨x, r.mono a b x h hx, by rw [s.mono a b y h hy]; rfl⟩⟩

/-- A reference to a string of bytes with a known length.  `id` is the input it stands for, if it is one. -/
structure VecRef where
  id : Option Nat
  len : Nat
  val : Ref Bytes

/-- The machine: the inputs allocated so far, the committed inputs, and those that were committed when it last ran. -/
structure Vm where
  next : Nat
  committed : Env
  executed : Env

/-- The errors of the crate, crates/components/hmac-sha256/src/error.rs:51-56 `ErrorKind`. -/
inductive PrfError where
  | vm
  | state
  | config
  deriving DecidableEq, Repr

/-- `vm.alloc` and `vm.alloc_vec`. -/
def Vm.alloc (vm : Vm) (len : Nat) : Vm × VecRef :=
  ({ vm with next := vm.next + 1 }, ⟨some vm.next, len, Ref.input vm.next len⟩)

/-- `vm.assign` followed by `vm.commit`: only inputs can be assigned, with a value of their length, and once. -/
def Vm.assign (vm : Vm) (r : VecRef) (v : Bytes) : Outcome PrfError Vm :=
  match r.id with
  | none => .err .vm
  | some id =>
    if v.length ≠ r.len then .err .vm
    else if (vm.committed id).isSome then .err .vm
    else .ok { vm with committed := fun j => if j = id then some v else vm.committed j }

/-- `vm.execute_all`: whatever can be computed from the committed inputs is computed. -/
def Vm.execute (vm : Vm) : Vm := { vm with executed := vm.committed }

/-- `try_recv` on the future of a decoding: the value if the machine has computed it. -/
def Vm.recv {α : Type} (vm : Vm) (r : Ref α) : Option α := r.run vm.executed

/-! ## `mpz_hash::sha256::Sha256` -/

/-- The hasher of `mpz_hash`: the state after `blocks` blocks, and bytes that are not compressed yet. -/
structure ShaRef where
  st : Ref HState
  blocks : Nat
  len : Nat
  buf : Ref Bytes

/-- `Sha256::new_with_init`. -/
def ShaRef.init (S : Sha) : ShaRef := ⟨Ref.const S.iv, 0, 0, Ref.const []⟩

/-- `Sha256::update`. -/
def ShaRef.update (h : ShaRef) (m : VecRef) : ShaRef :=
  { h with len := h.len + m.len, buf := Ref.map2 (· ++ ·) h.buf m.val }

/-- `Sha256::compress`: compresses the full blocks. -/
def ShaRef.compress (S : Sha) (h : ShaRef) : ShaRef :=
  ⟨Ref.map2 S.absorb h.st h.buf, h.blocks + h.len / 64, h.len % 64, h.buf.map (·.drop (64 * (h.len / 64)))⟩

/-- `Sha256::finalize`: the digest of everything hashed so far. -/
def ShaRef.finalize (S : Sha) (h : ShaRef) : VecRef :=
  ⟨none, 32, Ref.map2 (fun st b => stateToBytes (S.absorb st (b ++ shaPadding (64 * h.blocks + h.len)))) h.st h.buf⟩

end Tlsn.Hmac
