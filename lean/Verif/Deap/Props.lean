import Verif.Deap.Steps

/-! # C72: the outputs of a DEAP VM are those of the committed inputs -/

namespace Tlsn.DualExec

variable {σ : Type} {B : BSearch} {M : VmApi σ}

theorem checkOutput_ok {d d' : Deap σ Ideal} {x : Slice × Nat} (h : checkOutput M Ideal.api x d = (d', .ok ())) :
    d' = d ∧ (M.get d.mpc x.1 = .ok none ∨ ∃ v, M.get d.mpc x.1 = .ok (some v) ∧ Ideal.api.recv d.zk x.2 = .ok (some v)) := by
  obtain ⟨d1, o, h1, k1⟩ := Act.bind_ok h
  injection h1 with e1 e2
  subst e1
  cases o with
  | none => cases k1; exact ⟨rfl, Or.inl e2⟩
  | some m =>
    obtain ⟨d2, o2, h2, k2⟩ := Act.bind_ok k1
    injection h2 with e3 e4
    subst e3
    cases o2 with
    | none => cases k2
    | some z =>
      simp only at k2
      split at k2
      · cases k2
      · rename_i hne
        cases k2
        exact ⟨rfl, Or.inr ⟨z, by rw [not_not.1 hne]; exact e2, e4⟩⟩

theorem checkOutputs_ok {l : List (Slice × Nat)} {d d' : Deap σ Ideal} (h : Act.forEach (checkOutput M Ideal.api) l d = (d', .ok ())) :
    d' = d ∧ ∀ x ∈ l, M.get d.mpc x.1 = .ok none ∨ ∃ v, M.get d.mpc x.1 = .ok (some v) ∧ Ideal.api.recv d.zk x.2 = .ok (some v) := by
  induction l generalizing d with
  | nil => cases h; exact ⟨rfl, by simp⟩
  | cons x l ih =>
    obtain ⟨d1, _, h1, k1⟩ := Act.bind_ok h
    obtain ⟨rfl, h2⟩ := checkOutput_ok h1
    obtain ⟨rfl, h3⟩ := ih k1
    refine ⟨rfl, fun y hy => ?_⟩
    rcases List.mem_cons.1 hy with rfl | hy
    · exact h2
    · exact h3 y hy

theorem decodeInputs_ok {ss : List Slice} {d d' : Deap σ Ideal} {inputs : List (Slice × Nat)}
    (h : decodeInputs M ss d = (d', .ok inputs)) : inputs.map (·.1) = ss := by
  induction ss generalizing d inputs with
  | nil => cases h; rfl
  | cons s ss ih =>
    obtain ⟨d1, o, h1, k1⟩ := Act.bind_ok h
    cases o with
    | done => cases k1
    | slice _ => cases k1
    | future id =>
      obtain ⟨d2, rest, h2, k2⟩ := Act.bind_ok k1
      cases k2
      rw [List.map_cons, ih h2]

theorem zkCommit_ok {z : Slice} {d d' : Deap σ Ideal} {o : VmOut} (h : onZk (Ideal.api.perform (.commit z)) d = (d', .ok o)) :
    ∀ i, i < z.len → d'.zk.committed (z.start + i) = true := by
  obtain ⟨v, h1, rfl⟩ := onZk_ok h
  simp only [Ideal.api, Ideal.perform] at h1
  split at h1
  · cases h1
    intro i hi
    simp only [Bool.or_eq_true]
    exact Or.inl (Slice.has_iff.2 ⟨i, hi, rfl⟩)
  · cases h1

theorem publishInput_ok {x : Slice × Nat} {d d' : Deap σ Ideal} (h : publishInput B M Ideal.api x d = (d', .ok ())) :
    ∃ z, d.map.tryGet B x.1 = .ok z ∧ ∀ i, i < z.len → d'.zk.committed (z.start + i) = true := by
  obtain ⟨d1, z, h1, k1⟩ := Act.bind_ok h
  obtain ⟨h2, rfl⟩ := translate_ok h1
  refine ⟨z, h2, ?_⟩
  obtain ⟨d2, role, h3, k2⟩ := Act.bind_ok k1
  cases role with
  | follower =>
    obtain ⟨d3, o, h4, k3⟩ := Act.bind_ok k2
    cases k3
    exact zkCommit_ok h4
  | leader =>
    obtain ⟨d3, o, h4, k3⟩ := Act.bind_ok k2
    cases o with
    | none => cases k3
    | some v =>
      obtain ⟨d4, o, h5, k4⟩ := Act.bind_ok k3
      obtain ⟨d5, o, h6, k5⟩ := Act.bind_ok k4
      cases k5
      exact zkCommit_ok h6

theorem publishInputs_ok {l : List (Slice × Nat)} {d d' : Deap σ Ideal}
    (h : Act.forEach (publishInput B M Ideal.api) l d = (d', .ok ())) :
    ∀ s ∈ l.map (·.1), ∃ z, d.map.tryGet B s = .ok z ∧ ∀ i, i < z.len → d'.zk.committed (z.start + i) = true := by
  induction l generalizing d with
  | nil => simp
  | cons x l ih =>
    obtain ⟨d1, _, h1, k1⟩ := Act.bind_ok h
    have s1 := pres_publishInput (B := B) (M := M) (d0 := d) x d (.refl d)
    rw [h1] at s1
    have s2 := Pres.forEach (pres_publishInput (B := B) (M := M) (d0 := d1)) l d1 (.refl _)
    rw [show Act.forEach (publishInput B M Ideal.api) l d1 = _ from k1] at s2
    intro s hs
    rw [List.map_cons] at hs
    rcases List.mem_cons.1 hs with rfl | hs
    · obtain ⟨z, h2, h3⟩ := publishInput_ok h1
      exact ⟨z, h2, fun i hi => s2.zk.committed _ (h3 i hi)⟩
    · obtain ⟨z, h2, h3⟩ := ih k1 s hs
      exact ⟨z, by rw [← s1.map]; exact h2, h3⟩

/-- What a party has done when it has finalized. -/
theorem finalize_ok {d d' : Deap σ Ideal} (h : Deap.finalize B M Ideal.api d = (d', .ok ())) :
    d.zk.Le d'.zk ∧ d'.zk.known = values d'.zk.input d'.zk.prog ∧
    (d.role = .follower → ∀ x ∈ d.outputs,
      M.get d'.mpc x.1 = .ok none ∨ ∃ v, M.get d'.mpc x.1 = .ok (some v) ∧ Ideal.api.recv d'.zk x.2 = .ok (some v)) ∧
    (∀ s ∈ d.followerInputs, ∃ z, d.map.tryGet B s = .ok z ∧ ∀ i, i < z.len → d'.zk.committed (z.start + i) = true) := by
  obtain ⟨d0, slices, h0, k0⟩ := Act.bind_ok h
  injection h0 with e1 e2
  subst e1
  cases e2
  obtain ⟨d1, inputs, h1, k1⟩ := Act.bind_ok k0
  have s1 := pres_decodeInputs (M := M) (d0 := d) d.followerInputs d (.refl d)
  rw [h1] at s1
  obtain ⟨d2, o2, h2, k2⟩ := Act.bind_ok k1
  obtain ⟨m, -, rfl⟩ := onMpc_ok h2
  obtain ⟨d3, _, h3, k3⟩ := Act.bind_ok k2
  have s3 := Pres.forEach (pres_publishInput (B := B) (M := M) (d0 := { d1 with mpc := m })) inputs { d1 with mpc := m } (.refl _)
  rw [h3] at s3
  obtain ⟨d4, o4, h4, k4⟩ := Act.bind_ok k3
  obtain ⟨v, h5, rfl⟩ := onZk_ok h4
  cases h5
  have hle : d.zk.Le d3.zk := s1.zk.trans s3.zk
  have hle' : d.zk.Le { d3.zk with known := values d3.zk.input d3.zk.prog } := hle.trans (d3.zk.le_perform .execute)
  have hc : ∀ s ∈ d.followerInputs, ∃ z, d.map.tryGet B s = .ok z ∧ ∀ i, i < z.len → d3.zk.committed (z.start + i) = true := by
    intro s hs
    rw [← decodeInputs_ok h1] at hs
    obtain ⟨z, h6, h7⟩ := publishInputs_ok h3 s hs
    exact ⟨z, by rw [← s1.map]; exact h6, h7⟩
  obtain ⟨d5, role, h6, k5⟩ := Act.bind_ok k4
  injection h6 with e3 e4
  subst e3
  have hrole : role = d.role := by
    cases e4
    exact s3.role.trans s1.role
  cases role with
  | leader =>
    cases k5
    exact ⟨hle', rfl, (fun hf => by rw [← hrole] at hf; cases hf), hc⟩
  | follower =>
    obtain ⟨d6, outs, h7, k6⟩ := Act.bind_ok k5
    injection h7 with e5 e6
    subst e5
    cases e6
    obtain ⟨d7, _, h8, k7⟩ := Act.bind_ok k6
    cases h8
    obtain ⟨rfl, h9⟩ := checkOutputs_ok k7
    have ho : d3.outputs = d.outputs := s3.outputs.trans s1.outputs
    exact ⟨hle', rfl, fun _ => ho ▸ h9, hc⟩

/-- The start. -/
theorem inv_new (role : Role) (mpc : σ) (zk : Ideal) : Inv [] (Deap.new role mpc zk) :=
  ⟨.nil, by simp, .nil, by simp, by simp [Deap.new]⟩

/-- A cell of the MPC memory in terms of the pair that contains it. -/
def cellInput (l : List (Event × Event)) (zk : Ideal) (a : Nat) : Option Bool :=
  match l.find? fun p => p.1.out.has a with
  | some p => zk.input (p.2.out.start + (a - p.1.out.start))
  | none => none

theorem pair_unique {l : List (Event × Event)} {d : Deap σ Ideal} (h : Inv l d) {p q : Event × Event} (hp : p ∈ l) (hq : q ∈ l) {a : Nat}
    (h1 : p.1.out.has a = true) (h2 : q.1.out.has a = true) : p = q := by
  obtain ⟨i, hi, rfl⟩ := List.mem_iff_getElem.1 hp
  obtain ⟨j, hj, rfl⟩ := List.mem_iff_getElem.1 hq
  have hpw := h.map.asc
  rw [List.pairwise_map] at hpw
  have hpw := List.pairwise_iff_getElem.1 hpw
  simp only [Slice.has, decide_eq_true_eq] at h1 h2
  rcases Nat.lt_trichotomy i j with hlt | rfl | hgt
  · have := hpw i j hi hj hlt; simp only at this; omega
  · rfl
  · have := hpw j i hj hi hgt; simp only at this; omega

theorem cellInput_pair {l : List (Event × Event)} {d : Deap σ Ideal} (h : Inv l d) (zk : Ideal) {p : Event × Event} (hp : p ∈ l) {i : Nat}
    (hi : i < p.1.out.len) : cellInput l zk (p.1.out.start + i) = zk.input (p.2.out.start + i) := by
  have hh : p.1.out.has (p.1.out.start + i) = true := Slice.has_iff.2 ⟨i, hi, rfl⟩
  unfold cellInput
  cases hf : l.find? fun p' => p'.1.out.has (p.1.out.start + i) with
  | none => exact absurd hh (by simpa using List.find?_eq_none.1 hf p hp)
  | some q =>
    have : q = p := pair_unique h (List.mem_of_find?_eq_some hf) hp (List.find?_some (p := fun p' : Event × Event => p'.1.out.has (p.1.out.start + i)) hf) hh
    subst this
    simp only
    rw [Nat.add_sub_cancel_left]

end Tlsn.DualExec

namespace Tlsn

open DualExec

/-- C72: whatever the MPC VM computes, and whatever was done before (allocations, inputs, calls, decodings, in any order, successful or
not, with other uses of the ZK VM in between): if the follower has finalized, there are values of the inputs, namely those committed in
the ZK VM, among them what the follower itself has assigned, such that every output that was decoded and is available in the MPC VM is
the output of the circuits on these inputs. -/
theorem C72_sound {σ : Type} (B : BSearch) (M : VmApi σ) (mpc : σ) (zk : Ideal) (calls : List DCall) (d' : Deap σ Ideal) :
    let r := (Deap.new .follower mpc zk).run B M Ideal.api calls
    Deap.finalize B M Ideal.api r.1 = (d', .ok ()) →
    ∃ inputs : Nat → Option Bool,
      (∀ a z, r.1.map.tryGet B ⟨a, 1⟩ = .ok z → inputs a = d'.zk.input z.start) ∧
      (∀ s data o, (.deap (.assign s data), .ok o) ∈ r.2 → data.length = s.len ∧
        ∀ i v, i < s.len → inputs (s.start + i) = some v → data[i]? = some v) ∧
      (∀ s o v, (.deap (.decode s), .ok o) ∈ r.2 → M.get d'.mpc s = .ok (some v) →
        readSlice (values inputs (eventsOf r.2)) s = some v) := by
  intro r h
  obtain ⟨l, hi, -, he, -, -, hr, hd⟩ := deap_run_inv (B := B) (M := M) calls (inv_new .follower mpc zk)
  change Inv l r.1 at hi
  change ∀ x ∈ r.2, Done l r.1 x at hd
  change l.map (·.1) = [] ++ eventsOf r.2 at he
  obtain ⟨h1, h2, h3, -⟩ := finalize_ok h
  have h3 := h3 hr
  have hcell : ∀ {s z : Slice} {i : Nat}, Tr l s z → i < s.len → cellInput l d'.zk (s.start + i) = d'.zk.input (z.start + i) := by
    intro s z i ht hlt
    obtain ⟨p, hp, hin, hst⟩ := ht.2 (by omega)
    have hx1 := hin.1
    have hx2 := hin.2
    have := cellInput_pair hi d'.zk hp (i := s.start - p.1.out.start + i) (by omega)
    rw [show p.1.out.start + (s.start - p.1.out.start + i) = s.start + i by omega] at this
    rw [this, hst, Nat.add_assoc]
  refine ⟨cellInput l d'.zk, ?_, ?_, ?_⟩
  · intro a z hz
    have := hcell (hi.translate hz) (i := 0) Nat.one_pos
    simpa using this
  · intro s data o hm
    obtain ⟨hlen, z, ht, ha⟩ := hd _ hm
    refine ⟨hlen, fun i v hlt hv => ?_⟩
    rw [hcell ht hlt] at hv
    have hdi : data[i]? = some data[i] := List.getElem?_eq_getElem (hlen ▸ hlt)
    have := h1.assigned _ _ (by rw [ha i hlt, hdi])
    unfold Ideal.input at hv
    split at hv
    · rw [this] at hv
      rw [hdi]
      exact hv
    · cases hv
  · intro s o v hm hv
    obtain ⟨id, hid⟩ := hd _ hm
    obtain ⟨z, hf, ht⟩ := hi.outs _ hid
    rcases h3 _ hid with h4 | ⟨v', h4, h5⟩
    · simp only at h4; rw [hv] at h4; cases h4
    · simp only at h4
      rw [hv] at h4
      cases h4
      have hi' : Inv l { r.1 with zk := d'.zk } := hi.grow rfl rfl h1
      have hread := hi'.read (ρ := cellInput l d'.zk) (ρz := d'.zk.input) (fun p hp i hlt => cellInput_pair hi _ hp hlt) ht
      simp only [List.nil_append] at he
      rw [← he, hread]
      simp only
      rw [← h2]
      simp only [Ideal.api] at h5
      rw [prefix_getElem? h1.futures hf] at h5
      exact (Outcome.ok.inj h5)

/-- C72: when a party has finalized, all private inputs of the follower are committed in the ZK VM. -/
theorem C72_published {σ : Type} (B : BSearch) (M : VmApi σ) (d d' : Deap σ Ideal) (h : Deap.finalize B M Ideal.api d = (d', .ok ()))
    (s : Slice) (hs : s ∈ d.followerInputs) :
    ∃ z, d.map.tryGet B s = .ok z ∧ ∀ i, i < z.len → d'.zk.committed (z.start + i) = true :=
  (finalize_ok h).2.2.2 s hs

end Tlsn
