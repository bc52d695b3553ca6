import Verif.Prf.Props

/-! # The PRF is allocated once, and in the mode it is configured for -/

namespace Tlsn

open Tlsn.Hmac

/-- C44: after the PRF was allocated and whatever was done with it, it can not be allocated again, neither for a premaster secret
nor for a master secret: so its outputs are those of one secret. -/
theorem C44_alloc_once {S : Sha} {cfg : PrfConfig} {secret : VecRef} {ops : List PrfOp} {prf : Prf} {vm : Vm} {out : PrfOutput}
    (h : PrfRun S cfg secret ops prf vm out) (vm' : Vm) (other : VecRef) :
    (∃ e, prf.allocMs S vm' other = .err e) ∧ ∃ e, prf.allocPms S vm' other = .err e := by
  obtain ⟨C, g, hC, rfl, hi, hl, ho, hL, hkd⟩ := prfRun_inv h
  obtain ⟨cfg', st, cr⟩ := prf
  rcases hi.state with hs | ⟨hs, _⟩ <;> simp only at hs <;> subst hs <;> obtain ⟨net, ms⟩ := cfg' <;> cases ms <;>
    exact ⟨⟨_, rfl⟩, _, rfl⟩

/-- C44: a PRF that is configured to derive the master secret does not take one, and one that is configured to be given the
master secret does not derive it. -/
theorem C44_alloc_mode (S : Sha) (cfg : PrfConfig) (vm : Vm) (secret : VecRef) :
    (cfg.ms ≠ .direct → (Prf.new cfg).allocMs S vm secret = .err .config) ∧
      (cfg.ms = .direct → (Prf.new cfg).allocPms S vm secret = .err .config) := by
  obtain ⟨net, ms⟩ := cfg
  cases ms <;> exact ⟨fun h => by first | rfl | exact absurd rfl h, fun h => by first | rfl | cases h⟩

/-- A PRF in the middle of its use. -/
example : ∃ prf vm out, PrfRun toySha ⟨.reduced, .direct⟩ toySecret [.flush] prf vm out ∧
    (match prf.allocMs toySha vm toySecret with | .err .state => true | _ => false) = true :=
  toyRun_spec (check := fun s _ => match s.1.allocMs toySha s.2 toySecret with | .err .state => true | _ => false) (by decide +kernel)
    ⟨by decide, by decide, by decide, by decide, by decide⟩ (by intro id v h; simp at h)

end Tlsn
