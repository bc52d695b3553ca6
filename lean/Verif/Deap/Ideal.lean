import Verif.Deap.MapProps

/-!
# An ideal virtual machine, and the meaning of a history of calls

The VMs of `mpz` are outside the repository.  This one stands for the ZK VM as one of the parties sees it: what the other party put
into its inputs is fixed in advance, and a value is known once the inputs it depends on are committed and the VM was executed.
-/

namespace Tlsn.DualExec

/-- What puts cells into a memory: an allocation of inputs, or the call of a circuit with the slices of its arguments. -/
inductive Event where
  | alloc (s : Slice)
  | call (c : Circuit) (args : List Slice) (s : Slice)

/-- The new cells. -/
def Event.out : Event → Slice
  | .alloc s => s
  | .call _ _ s => s

/-- The contents of a slice, if all of its cells are known. -/
def readSlice (v : Nat → Option Bool) (s : Slice) : Option (List Bool) := (List.range' s.start s.len).mapM v

/-- The value of a new cell: that of the input, or the bit of the output of the circuit. -/
def Event.value (inputs v : Nat → Option Bool) : Event → Nat → Option Bool
  | .alloc s, i => inputs (s.start + i)
  | .call c args _, i => (args.mapM (readSlice v)).bind fun x => (c.eval x)[i]?

/-- The values after one more event. -/
def addEvent (inputs v : Nat → Option Bool) (e : Event) : Nat → Option Bool := fun a =>
  if e.out.start ≤ a ∧ a < e.out.stop then e.value inputs v (a - e.out.start) else v a

/-- The values of all cells, given those of the inputs. -/
def values (inputs : Nat → Option Bool) (events : List Event) : Nat → Option Bool :=
  events.foldl (addEvent inputs) fun _ => none

/-- The visibility of an input. -/
inductive Vis where
  | pub
  | priv
  | blind
  deriving DecidableEq, Repr

/-- The VM.  `fill` is what the other party puts into the cells. -/
structure Ideal where
  fill : Nat → Bool
  next : Nat
  prog : List Event
  marked : Nat → Option Vis
  assigned : Nat → Option Bool
  committed : Nat → Bool
  futures : List Slice
  known : Nat → Option Bool

/-- A VM in which nothing has happened. -/
def Ideal.new (fill : Nat → Bool) : Ideal := ⟨fill, 0, [], fun _ => none, fun _ => none, fun _ => false, [], fun _ => none⟩

/-- The value of an input, once it is committed. -/
def Ideal.input (v : Ideal) (a : Nat) : Option Bool :=
  if v.committed a then some ((v.assigned a).getD (v.fill a)) else none

/-- Whether a cell was allocated as an input. -/
def Ideal.isInput (v : Ideal) (a : Nat) : Bool := v.prog.any fun e =>
  match e with
  | .alloc s => decide (s.start ≤ a ∧ a < s.stop)
  | .call _ _ _ => false

/-- Whether all cells of a slice satisfy a condition. -/
def Slice.all (s : Slice) (p : Nat → Bool) : Bool := (List.range' s.start s.len).all p

/-- Whether a cell is in a slice. -/
def Slice.has (s : Slice) (a : Nat) : Bool := decide (s.start ≤ a ∧ a < s.stop)

/-- Marks inputs, which must not be marked before. -/
def Ideal.mark (s : Slice) (vis : Vis) : Act Ideal VmOut := fun v =>
  if s.all fun a => v.isInput a && (v.marked a).isNone then
    ({ v with marked := fun a => if s.has a then some vis else v.marked a }, .ok .done)
  else (v, .err ())

/-- The operations.  Only marked inputs that are not blind can be assigned, and once; what is committed must be assigned or blind. -/
def Ideal.perform : VmCall → Act Ideal VmOut
  | .alloc n => fun v => ({ v with next := v.next + n, prog := v.prog ++ [.alloc ⟨v.next, n⟩] }, .ok (.slice ⟨v.next, n⟩))
  | .assign s data => fun v =>
    if data.length = s.len ∧ s.all (fun a => (v.marked a == some .pub || v.marked a == some .priv) && (v.assigned a).isNone) = true then
      ({ v with assigned := fun a => if s.has a then data[a - s.start]? else v.assigned a }, .ok .done)
    else (v, .err ())
  | .commit s => fun v =>
    if s.all fun a => v.marked a == some .blind || (v.assigned a).isSome then
      ({ v with committed := fun a => s.has a || v.committed a }, .ok .done)
    else (v, .err ())
  | .markPublic s => Ideal.mark s .pub
  | .markPrivate s => Ideal.mark s .priv
  | .markBlind s => Ideal.mark s .blind
  | .decode s => fun v =>
    if s.stop ≤ v.next then ({ v with futures := v.futures ++ [s] }, .ok (.future v.futures.length)) else (v, .err ())
  | .call c => fun v =>
    if c.valid ∧ c.args.all (fun s => decide (s.stop ≤ v.next)) = true then
      ({ v with next := v.next + c.circ.output, prog := v.prog ++ [.call c.circ c.args ⟨v.next, c.circ.output⟩] },
        .ok (.slice ⟨v.next, c.circ.output⟩))
    else (v, .err ())
  | .execute => fun v => ({ v with known := values v.input v.prog }, .ok .done)

/-- The ideal VM as a parameter of `Deap`. -/
def Ideal.api : VmApi Ideal where
  perform := Ideal.perform
  get v s := .ok (readSlice v.known s)
  recv v id := match v.futures[id]? with
    | some s => .ok (readSlice v.known s)
    | none => .err ()

/-! ## Histories -/

/-- A call on the DEAP VM, or one on the ZK VM alone, as users of `zk()` make. -/
inductive DCall where
  | deap (c : VmCall)
  | zk (c : VmCall)

section
variable {σ τ : Type} (B : BSearch) (M : VmApi σ) (Z : VmApi τ)

/-- One call. -/
def Deap.step (d : Deap σ τ) : DCall → Deap σ τ × Outcome Unit VmOut
  | .deap c => Deap.perform B M Z c d
  | .zk c => onZk (Z.perform c) d

/-- Calls one after the other, whatever their results, with the results. -/
def Deap.run (d : Deap σ τ) : List DCall → Deap σ τ × List (DCall × Outcome Unit VmOut)
  | [] => (d, [])
  | c :: cs =>
    let r := d.step B M Z c
    let s := Deap.run r.1 cs
    (s.1, (c, r.2) :: s.2)

end

/-- The event of a call on the DEAP VM that succeeded. -/
def eventOf : DCall × Outcome Unit VmOut → Option Event
  | (.deap (.alloc _), .ok (.slice s)) => some (.alloc s)
  | (.deap (.call c), .ok (.slice s)) => some (.call c.circ c.args s)
  | _ => none

/-- The events of a history. -/
def eventsOf (hist : List (DCall × Outcome Unit VmOut)) : List Event := hist.filterMap eventOf

end Tlsn.DualExec
