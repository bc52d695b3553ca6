import Verif.Sdk.Application
import Verif.Protocol.ProverExample

/-! # A session from the application behind the prover to the user of the SDK's verifier -/

namespace Tlsn.Sdk.ApplicationExample

open Tlsn.Protocol Tlsn.Protocol.ProverExample

set_option maxRecDepth 100000

/-- The prover's message: the first two of the bytes that were sent, and those that were received. -/
def message : WireMsg := ⟨ApplicationExample.statement.config.toRequest, some ([1, 2], ApplicationExample.identity),
  some ⟨[1, 2], [0x68, 0x69], RangeSet.ofRange 0 2, RangeSet.ofRange 0 2, 3, 2⟩⟩

def calls : List VCall := [.connect (.done ()), .setup (.done (.proxy ['a'] (.done ()))), .setServerSocket, .run (.done ()),
  .verify (sessionInfo env.tls .v12) (verifySteps env (Protocol.ApplicationExample.zkVm proverMem) (some message) true)]

def shown : VReply → Option (Option SdkPartial × Nat × Nat)
  | .output o => some (o.transcript, o.connection.sentLength, o.connection.recvLength)
  | _ => none

/-- The hypotheses of `C120_application` that `C131_prover` does not have: `verify` returns an output. -/
example : ∃ o, (runVerifier ⟨100, 100, none, none⟩ calls).2[4]? =
      some (.verify (sessionInfo env.tls .v12) (verifySteps env (Protocol.ApplicationExample.zkVm proverMem) (some message) true), .output o) ∧
    o.transcript = some ⟨[1, 2, 0], [(0, 2)], [0x68, 0x69], [(0, 2)]⟩ ∧ o.connection.sentLength = 3 ∧ o.connection.recvLength = 2 := by
  have h : ((runVerifier ⟨100, 100, none, none⟩ calls).2[4]?.bind fun x => shown x.2) =
      some (some ⟨[1, 2, 0], [(0, 2)], [0x68, 0x69], [(0, 2)]⟩, 3, 2) := by decide +kernel
  cases hx : (runVerifier ⟨100, 100, none, none⟩ calls).2[4]? with
  | none => rw [hx] at h; cases h
  | some x =>
    obtain ⟨c, r⟩ := x
    rw [hx] at h
    have hc := (runCalls_get (step := verifierCall _) hx).2.1
    unfold calls at hc
    simp only [List.getElem?_cons_succ, List.getElem?_cons_zero, Option.some.injEq] at hc
    subst hc
    cases r <;> first | (cases h; done) | skip
    rename_i o
    simp only [Option.bind_some, shown, Option.some.injEq, Prod.mk.injEq] at h
    exact ⟨o, rfl, h⟩

end Tlsn.Sdk.ApplicationExample
