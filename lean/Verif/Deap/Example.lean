import Verif.Deap.Secret

/-! # A computation with two private inputs -/

namespace Tlsn.DualExec.Demo

/-- One bit each of both parties. -/
def xor : Circuit := ⟨[1, 1], 1, fun x => [(x.getD 0 []).getD 0 false ^^ (x.getD 1 []).getD 0 false], fun _ => rfl⟩

/-- The calls of the follower: its own input is the cell 0, that of the leader the cell 1. -/
def calls : List DCall :=
  [.deap (.alloc 1), .deap (.alloc 1), .deap (.markPrivate ⟨0, 1⟩), .deap (.markBlind ⟨1, 1⟩), .deap (.assign ⟨0, 1⟩ [true]),
    .deap (.commit ⟨0, 1⟩), .deap (.commit ⟨1, 1⟩), .deap (.call ⟨xor, [⟨0, 1⟩, ⟨1, 1⟩]⟩), .deap (.decode ⟨2, 1⟩), .deap .execute]

/-- The follower, when the leader uses the bit `m` in the MPC VM and the bit `z` in the ZK VM. -/
def run (m z : Bool) := (Deap.new .follower (Ideal.new fun _ => m) (Ideal.new fun _ => z)).run firstSearch Ideal.api Ideal.api calls

/-- The results of finalizing. -/
def result (m z : Bool) : Outcome Unit Unit := (Deap.finalize firstSearch Ideal.api Ideal.api (run m z).1).2

-- every call succeeds
example : ((run true true).2.map fun x => match x.2 with | .ok o => some o | _ => none) =
    [some (.slice ⟨0, 1⟩), some (.slice ⟨1, 1⟩), some .done, some .done, some .done, some .done, some .done, some (.slice ⟨2, 1⟩),
      some (.future 0), some .done] := by decide +kernel

-- C72_sound: an honest leader's computation is accepted, with the right output
example : result true true = .ok () ∧ result false false = .ok () := by decide +kernel

example : Ideal.api.get (run false false).1.mpc ⟨2, 1⟩ = .ok (some [true]) := by decide +kernel

example : Ideal.api.get (run true true).1.mpc ⟨2, 1⟩ = .ok (some [false]) := by decide +kernel

-- and one that does not use the same input in both VMs is not
example : result true false = .err () ∧ result false true = .err () := by decide +kernel

-- C72_secret_until_end: before the end, the follower's input is not committed in the ZK VM and the leader's is; after it both are
example : (run true true).1.zk.committed 0 = false ∧ (run true true).1.zk.committed 1 = true ∧
    (Deap.finalize firstSearch Ideal.api Ideal.api (run true true).1).1.zk.committed 0 = true := by decide +kernel

example : ∀ c ∈ calls, c.zkCommit = false := by decide +kernel

end Tlsn.DualExec.Demo
