import Verif.Deap.Example

/-!
# C125: the keys that the records are proven with are those of the session

The MPC protocol computes the session keys in the DEAP VM.  Proofs about the records are made in the ZK VM alone, with the
references that `translate_keys` returns.
-/

namespace Tlsn.DualExec

/-- crates/mpc-tls/src/lib.rs:43-54 `SessionKeys`: references to arrays of bytes, as slices of bits. -/
structure SessionKeys where
  clientWriteKey : Slice
  clientWriteIv : Slice
  serverWriteKey : Slice
  serverWriteIv : Slice
  serverWriteMacKey : Slice
  deriving DecidableEq, Repr

/-- crates/tlsn/src/deps.rs:87-101: `vm.translate(key).expect(..)`. -/
def translateKey (B : BSearch) (map : MemoryMap) (s : Slice) : Outcome Unit Slice :=
  match map.tryGet B s with
  | .ok z => .ok z
  | _ => .panic

/-- crates/tlsn/src/deps.rs:86-102 `translate_keys`; crates/tlsn/src/deps/prover.rs:106-113 and crates/tlsn/src/deps/verifier.rs:104-111 call it on what `alloc` of the
MPC protocol returned. -/
def translateKeys {σ τ : Type} (B : BSearch) (d : Deap σ τ) (keys : SessionKeys) : Outcome Unit SessionKeys := do
  let clientWriteKey ← translateKey B d.map keys.clientWriteKey
  let clientWriteIv ← translateKey B d.map keys.clientWriteIv
  let serverWriteKey ← translateKey B d.map keys.serverWriteKey
  let serverWriteIv ← translateKey B d.map keys.serverWriteIv
  let serverWriteMacKey ← translateKey B d.map keys.serverWriteMacKey
  pure { clientWriteKey, clientWriteIv, serverWriteKey, serverWriteIv, serverWriteMacKey }

/-! ## Specification -/

/-- The keys of a session. -/
inductive KeyName where
  | clientWriteKey
  | clientWriteIv
  | serverWriteKey
  | serverWriteIv
  | serverWriteMacKey
  deriving DecidableEq, Repr

/-- Where a key is. -/
def SessionKeys.get (k : SessionKeys) : KeyName → Slice
  | .clientWriteKey => k.clientWriteKey
  | .clientWriteIv => k.clientWriteIv
  | .serverWriteKey => k.serverWriteKey
  | .serverWriteIv => k.serverWriteIv
  | .serverWriteMacKey => k.serverWriteMacKey

/-! ## Lemmas -/

theorem translateKey_ok {B : BSearch} {map : MemoryMap} {s z : Slice} : translateKey B map s = .ok z ↔ map.tryGet B s = .ok z := by
  unfold translateKey
  cases map.tryGet B s <;> simp

theorem outcome_bind_ok {α β : Type} {x : Outcome Unit α} {f : α → Outcome Unit β} {b : β} (h : (x >>= f) = .ok b) :
    ∃ a, x = .ok a ∧ f a = .ok b := by
  cases x with
  | ok a => exact ⟨a, rfl, h⟩
  | err e => cases h
  | panic => cases h

theorem translateKeys_ok {σ τ : Type} {B : BSearch} {d : Deap σ τ} {keys keys' : SessionKeys} (h : translateKeys B d keys = .ok keys')
    (n : KeyName) : d.map.tryGet B (keys.get n) = .ok (keys'.get n) := by
  obtain ⟨a1, h1, h⟩ := outcome_bind_ok h
  obtain ⟨a2, h2, h⟩ := outcome_bind_ok h
  obtain ⟨a3, h3, h⟩ := outcome_bind_ok h
  obtain ⟨a4, h4, h⟩ := outcome_bind_ok h
  obtain ⟨a5, h5, h⟩ := outcome_bind_ok h
  cases h
  cases n
  · exact translateKey_ok.1 h1
  · exact translateKey_ok.1 h2
  · exact translateKey_ok.1 h3
  · exact translateKey_ok.1 h4
  · exact translateKey_ok.1 h5

theorem translateKeys_total {σ τ : Type} {B : BSearch} {d : Deap σ τ} {keys : SessionKeys}
    (h : ∀ n, ∃ z, d.map.tryGet B (keys.get n) = .ok z) : ∃ keys', translateKeys B d keys = .ok keys' := by
  obtain ⟨a1, h1⟩ := h .clientWriteKey
  obtain ⟨a2, h2⟩ := h .clientWriteIv
  obtain ⟨a3, h3⟩ := h .serverWriteKey
  obtain ⟨a4, h4⟩ := h .serverWriteIv
  obtain ⟨a5, h5⟩ := h .serverWriteMacKey
  simp only [SessionKeys.get] at h1 h2 h3 h4 h5
  refine ⟨⟨a1, a2, a3, a4, a5⟩, ?_⟩
  unfold translateKeys
  rw [translateKey_ok.2 h1, translateKey_ok.2 h2, translateKey_ok.2 h3, translateKey_ok.2 h4, translateKey_ok.2 h5]
  rfl

theorem Tr.mono {l l' : List (Event × Event)} {s z : Slice} (h : Tr l s z) (hl : l <+: l') : Tr l' s z :=
  ⟨h.1, fun hs => by obtain ⟨q, hq, h'⟩ := h.2 hs; exact ⟨q, hl.subset hq, h'⟩⟩

theorem Deap.run_append {σ τ : Type} (B : BSearch) (M : VmApi σ) (Z : VmApi τ) (d : Deap σ τ) (a b : List DCall) :
    d.run B M Z (a ++ b) = (((d.run B M Z a).1.run B M Z b).1, (d.run B M Z a).2 ++ ((d.run B M Z a).1.run B M Z b).2) := by
  induction a generalizing d with
  | nil => rfl
  | cons c a ih =>
    simp only [List.cons_append, Deap.run]
    rw [ih]

end Tlsn.DualExec

namespace Tlsn

open DualExec

/-- C125: whatever was done before, the keys of a session that were computed in the DEAP VM are translated without a panic, to
references of the same lengths. -/
theorem C125_no_panic {σ : Type} (B : BSearch) (M : VmApi σ) (role : Role) (mpc : σ) (zk : Ideal) (calls : List DCall)
    (keys : SessionKeys) :
    let r := (Deap.new role mpc zk).run B M Ideal.api calls
    (∀ n, 0 < (keys.get n).len ∧ ∃ e ∈ eventsOf r.2, (keys.get n).Inside e.out) →
    (∀ e ∈ eventsOf r.2, 0 < e.out.len) →
    ∃ keys', translateKeys B r.1 keys = .ok keys' ∧ ∀ n, (keys'.get n).len = (keys.get n).len := by
  intro r hk he0
  obtain ⟨l, hi, -, he, -, -, -, -⟩ := deap_run_inv (B := B) (M := M) calls (inv_new role mpc zk)
  change Inv l r.1 at hi
  change l.map (·.1) = [] ++ eventsOf r.2 at he
  simp only [List.nil_append] at he
  have hall : ∀ n, ∃ z, r.1.map.tryGet B (keys.get n) = .ok z := by
    intro n
    obtain ⟨hn, e, hm, hin⟩ := hk n
    rw [← he] at hm
    obtain ⟨p, hp, rfl⟩ := List.mem_map.1 hm
    refine ⟨_, hi.map.tryGet_complete hn (List.mem_map.2 ⟨p, hp, rfl⟩) hin (Or.inl ?_)⟩
    intro y hy
    obtain ⟨q, hq, rfl⟩ := List.mem_map.1 hy
    exact he0 q.1 (he ▸ List.mem_map.2 ⟨q, hq, rfl⟩)
  obtain ⟨keys', hk'⟩ := translateKeys_total hall
  exact ⟨keys', hk', fun n => (hi.translate (translateKeys_ok hk' n)).1⟩

/-- C125: whatever the MPC VM computes, and whatever is done before and after the keys are translated: once a party has finalized,
the ZK VM contains at the translated references what the circuits make of the committed inputs at the references of the session, and
these are the inputs with which the follower compared every output that was decoded in the MPC VM. -/
theorem C125_same_keys {σ : Type} (B : BSearch) (M : VmApi σ) (role : Role) (mpc : σ) (zk : Ideal) (before after : List DCall)
    (keys keys' : SessionKeys) (d' : Deap σ Ideal) :
    let r0 := (Deap.new role mpc zk).run B M Ideal.api before
    let r := (Deap.new role mpc zk).run B M Ideal.api (before ++ after)
    translateKeys B r0.1 keys = .ok keys' →
    Deap.finalize B M Ideal.api r.1 = (d', .ok ()) →
    ∃ inputs : Nat → Option Bool,
      (∀ a z, r.1.map.tryGet B ⟨a, 1⟩ = .ok z → inputs a = d'.zk.input z.start) ∧
      (∀ n, readSlice d'.zk.known (keys'.get n) = readSlice (values inputs (eventsOf r.2)) (keys.get n)) ∧
      (role = .follower → ∀ s o v, (.deap (.decode s), .ok o) ∈ r.2 → M.get d'.mpc s = .ok (some v) →
        readSlice (values inputs (eventsOf r.2)) s = some v) := by
  intro r0 r hk h
  obtain ⟨l0, hi0, -, he0, -, -, hr0, hd0⟩ := deap_run_inv (B := B) (M := M) before (inv_new role mpc zk)
  obtain ⟨l, hi, hpre, he, ho, hz, hr, hd⟩ := deap_run_inv (B := B) (M := M) after hi0
  have hrun : r = ((r0.1.run B M Ideal.api after).1, r0.2 ++ (r0.1.run B M Ideal.api after).2) := Deap.run_append ..
  have hrun1 : r.1 = (r0.1.run B M Ideal.api after).1 := by rw [hrun]
  change Inv l (r0.1.run B M Ideal.api after).1 at hi
  rw [← hrun1] at hi
  have he : l.map (·.1) = eventsOf r.2 := by
    rw [he, he0, hrun]
    simp [eventsOf, List.filterMap_append, r0]
  have hd : ∀ x ∈ r.2, Done l r.1 x := by
    intro x hx
    rw [hrun] at hx
    rcases List.mem_append.1 hx with hx | hx
    · exact hrun1 ▸ (hd0 x hx).mono hpre ho hz
    · exact hrun1 ▸ hd x hx
  have hr : r.1.role = role := by rw [hrun1]; exact hr.trans hr0
  obtain ⟨h1, h2, h3, -⟩ := finalize_ok h
  have hi' : Inv l { r.1 with zk := d'.zk } := hi.grow rfl rfl h1
  have hread : ∀ {s z : Slice}, Tr l s z → readSlice (values (cellInput l d'.zk) (eventsOf r.2)) s = readSlice d'.zk.known z := by
    intro s z ht
    have := hi'.read (ρ := cellInput l d'.zk) (ρz := d'.zk.input) (fun p hp i hlt => cellInput_pair hi _ hp hlt) ht
    rw [← he, this, h2]
  refine ⟨cellInput l d'.zk, ?_, ?_, ?_⟩
  · intro a z hz'
    obtain ⟨p, hp, hin, hst⟩ := (hi.translate hz').2 Nat.one_pos
    have hx1 := hin.1
    have hx2 := hin.2
    simp only at hx1 hx2 hst
    have := cellInput_pair hi d'.zk hp (i := a - p.1.out.start) (by omega)
    rw [show p.1.out.start + (a - p.1.out.start) = a by omega] at this
    rw [this, hst]
  · intro n
    exact (hread ((hi0.translate (translateKeys_ok hk n)).mono hpre)).symm
  · intro hf s o v hm hv
    obtain ⟨id, hid⟩ := hd _ hm
    obtain ⟨z, hfu, ht⟩ := hi.outs _ hid
    rcases h3 (hr.trans hf) _ hid with h4 | ⟨v', h4, h5⟩
    · simp only at h4; rw [hv] at h4; cases h4
    · simp only at h4
      rw [hv] at h4
      cases h4
      rw [hread ht]
      simp only [Ideal.api] at h5
      rw [prefix_getElem? h1.futures hfu] at h5
      exact (Outcome.ok.inj h5)

/-! ## An example -/

namespace DualExec.Demo

/-- As keys: both inputs, the output, and again an input and the output. -/
def keys : SessionKeys := ⟨⟨0, 1⟩, ⟨1, 1⟩, ⟨2, 1⟩, ⟨0, 1⟩, ⟨2, 1⟩⟩

/-- The calls, after which the keys are translated; the ZK VM has other cells in front. -/
def keyCalls : List DCall := .zk (.alloc 5) :: calls

/-- The follower. -/
def keyRun (m z : Bool) := (Deap.new .follower (Ideal.new fun _ => m) (Ideal.new fun _ => z)).run firstSearch Ideal.api Ideal.api keyCalls

-- C125_no_panic: the keys are found, each at its own place
example : translateKeys firstSearch (keyRun true true).1 keys = .ok ⟨⟨5, 1⟩, ⟨6, 1⟩, ⟨7, 1⟩, ⟨5, 1⟩, ⟨7, 1⟩⟩ := by decide +kernel

example : ((eventsOf (keyRun true true).2).map Event.out) = [⟨0, 1⟩, ⟨1, 1⟩, ⟨2, 1⟩] := by decide +kernel

-- C125_same_keys: and the ZK VM has their values when the follower has finalized
example : (Deap.finalize firstSearch Ideal.api Ideal.api (keyRun false false).1).2 = .ok () ∧
    readSlice (Deap.finalize firstSearch Ideal.api Ideal.api (keyRun false false).1).1.zk.known ⟨5, 1⟩ = some [true] ∧
    readSlice (Deap.finalize firstSearch Ideal.api Ideal.api (keyRun false false).1).1.zk.known ⟨6, 1⟩ = some [false] ∧
    readSlice (Deap.finalize firstSearch Ideal.api Ideal.api (keyRun false false).1).1.zk.known ⟨7, 1⟩ = some [true] := by
  decide +kernel

-- a key that was not computed in the VM makes the translation panic
example : translateKeys firstSearch (keyRun true true).1 { keys with serverWriteIv := ⟨9, 1⟩ } = .panic := by decide +kernel

end DualExec.Demo

end Tlsn
