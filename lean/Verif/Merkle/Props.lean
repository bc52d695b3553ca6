import Verif.Merkle.Spec
import Verif.Merkle.Lemmas

/-!
# Properties of Merkle proofs (C18, C19, and the Merkle part of C20)
-/

namespace Tlsn

/-! ## C18 -/

/-- The tree produces a proof exactly for non-empty, strictly increasing, in-range positions (otherwise
`proof` panics), and the root exists exactly for non-empty trees. -/
theorem C18_proof_exists_iff (t : MerkleTree) (h : HashAlg) (idxs : List Nat) :
    ((t.proof h idxs).isSome ↔ ValidIndices t.leaves.length idxs) ∧
    ((t.root h).isSome ↔ t.leaves ≠ []) := by
  constructor
  · unfold MerkleTree.proof ValidIndices
    by_cases hp : idxs.Pairwise (· < ·)
    · rw [if_neg (not_not.2 hp)]
      rcases List.eq_nil_or_concat idxs with rfl | ⟨init, last, rfl⟩
      · simp
      · rw [List.concat_eq_append] at hp ⊢
        rw [List.getLast?_append]
        simp only [List.getLast?_singleton, Option.some_or]
        have hpa := List.pairwise_append.1 hp
        split
        · rename_i hlt
          simp only [Option.isSome_some, true_iff]
          refine ⟨by simp, hp, fun i hi => ?_⟩
          rcases List.mem_append.1 hi with hi | hi
          · exact Nat.lt_trans (hpa.2.2 i hi last (by simp)) hlt
          · rw [List.mem_singleton.1 hi]; exact hlt
        · rename_i hlt
          simp only [Option.isSome_none, Bool.false_eq_true, false_iff]
          rintro ⟨_, _, hb⟩
          exact hlt (hb last (by simp))
    · rw [if_pos hp]
      simp [hp]
  · unfold MerkleTree.root
    rw [Option.isSome_map]
    constructor
    · rintro h1 h2
      rw [h2] at h1
      simp [merkleRoot, treeDepth, layerUp] at h1
    · intro hne
      obtain ⟨r, hr, _⟩ := merkleRoot_isSome (H := h.hash) t.leaves hne
      simp [hr]

/-- **C18** Whatever the number of leaves and whatever valid positions, the tree's proof verifies
against the tree's root for the leaves at those positions, presented in any order. -/
theorem C18_complete (checked : Bool) (t : MerkleTree) (h : HashAlg) (idxs : List Nat)
    (root : TypedHash) (p : MerkleProof) (presented : List (Nat × Digest))
    (hr : t.root h = some root) (hp : t.proof h idxs = some p)
    (hpres : presented.Perm (leavesAt t.leaves idxs)) :
    p.verify checked h root presented = .ok () := by
  obtain ⟨hne, hs, hb⟩ := (C18_proof_exists_iff t h idxs).1.1 (by rw [hp]; rfl)
  have hlne : t.leaves ≠ [] := (C18_proof_exists_iff t h idxs).2.1 (by rw [hr]; rfl)
  have hpeq : p = ⟨t.alg, t.leaves.length,
      helperNodes h.hash (treeDepth t.leaves.length) t.leaves idxs⟩ := by
    unfold MerkleTree.proof at hp
    rw [if_neg (not_not.2 hs)] at hp
    split at hp
    · cases hp
    · split at hp
      · exact (Option.some.inj hp).symm
      · cases hp
  have hstrict : (leavesAt t.leaves idxs).Pairwise (fun a b => a.1 < b.1) := by
    unfold leavesAt; rw [List.pairwise_map]; exact hs
  have hsorted : sortLeaves presented = leavesAt t.leaves idxs := by
    refine List.Perm.eq_of_pairwise (le := fun a b : Nat × Digest => a.1 ≤ b.1) ?_
      (sortLeaves_sorted _) (hstrict.imp Nat.le_of_lt) ((sortLeaves_perm _).trans hpres)
    intro a b ha hb h1 h2
    have ha' : a ∈ leavesAt t.leaves idxs :=
      ((sortLeaves_perm _).trans hpres).mem_iff.1 ha
    simp only [leavesAt, List.mem_map] at ha' hb
    obtain ⟨i, _, rfl⟩ := ha'
    obtain ⟨j, _, rfl⟩ := hb
    simp only at h1 h2
    rw [Nat.le_antisymm h1 h2]
  obtain ⟨r, hroot, htop⟩ := merkleRoot_isSome (H := h.hash) t.leaves hlne
  have hrv : root.value = r := by
    rw [MerkleTree.root, hroot] at hr
    rw [← Option.some.inj hr]
  unfold MerkleProof.verify
  simp only [hsorted]
  rw [if_neg (by
    rw [not_not]
    exact (List.pairwise_map.2 (hstrict.imp Nat.ne_of_lt))), if_pos]
  rw [hpeq, hrv]
  unfold rsRoot
  rw [if_neg]
  · have hc := climbAll_complete (H := h.hash) (treeDepth t.leaves.length) t.leaves idxs hs hb []
    rw [parentIdxs_top _ _ idxs hs hb hne (halfUp_treeDepth_le _), htop, List.append_nil] at hc
    have e : leavesAt t.leaves idxs = nodesOf t.leaves idxs := rfl
    rw [e, hc]; rfl
  · simp only [Bool.and_eq_true, List.any_eq_true, decide_eq_true_eq, not_and, not_exists, Nat.not_le]
    intro _ x hx
    simp only [leavesAt, List.mem_map] at hx
    obtain ⟨i, hi, rfl⟩ := hx
    exact hb i hi

/-- Example: five leaves (not a power of two), positions 1 and 4, presented in reverse order. -/
example : ∃ root p, (MerkleTree.mk 1 [[1, 1], [2, 2], [3, 3], [4, 4], [5, 5]]).root toyHash = some root ∧
    (MerkleTree.mk 1 [[1, 1], [2, 2], [3, 3], [4, 4], [5, 5]]).proof toyHash [1, 4] = some p ∧
    p.verify true toyHash root [(4, [5, 5]), (1, [2, 2])] = .ok () := by
  obtain ⟨h1, h2⟩ := C18_proof_exists_iff (MerkleTree.mk 1 [[1, 1], [2, 2], [3, 3], [4, 4], [5, 5]])
    toyHash [1, 4]
  obtain ⟨p, hp⟩ := Option.isSome_iff_exists.1 (h1.2 (by simp [ValidIndices]))
  obtain ⟨r, hr⟩ := Option.isSome_iff_exists.1 (h2.2 (by simp))
  exact ⟨r, p, hr, hp, C18_complete true _ toyHash [1, 4] r p _ hr hp (by decide)⟩

/-! ## C19 -/

/-- **C19** An accepted proof whose leaf count is the honest tree's shows only honest leaves at their
own positions, unless a hash collision is exhibited.  `checked = true` says that the dependency
refuses positions outside the tree; without it the caller has to ensure that. -/
theorem C19_binding (checked : Bool) (N : Nat) (t : MerkleTree) (h : HashAlg) (root : TypedHash)
    (p : MerkleProof) (presented : List (Nat × Digest))
    (hN : OutLen N h) (hlen : ∀ l ∈ t.leaves, l.length = N) (hpl : ∀ x ∈ presented, x.2.length = N)
    (hr : t.root h = some root) (hcount : p.leafCount = t.leaves.length)
    (hin : checked = true ∨ ∀ x ∈ presented, x.1 < t.leaves.length)
    (hv : p.verify checked h root presented = .ok ()) :
    (∀ x ∈ presented, t.leaves[x.1]? = some x.2) ∨ Collision h := by
  unfold MerkleProof.verify at hv
  simp only at hv
  split at hv
  · cases hv
  · rename_i hnd
    rw [not_not] at hnd
    split at hv
    · rename_i hroot
      have hperm := sortLeaves_perm presented
      have hstrict := sorted_strict (sortLeaves_sorted presented) hnd
      unfold rsRoot at hroot
      split at hroot
      · cases hroot
      · rename_i hchk
        rw [hcount] at hroot hchk
        have hb : ∀ x ∈ sortLeaves presented, x.1 < t.leaves.length := by
          rcases hin with hc | hb
          · subst hc
            simp only [Bool.true_and, List.any_eq_true, decide_eq_true_eq, not_exists, not_and,
              Nat.not_le] at hchk
            exact hchk
          · exact fun x hx => hb x (hperm.mem_iff.1 hx)
        obtain ⟨top, htop, hhead⟩ := Option.bind_eq_some_iff.1 hroot
        have hnodes : Nodes N t.leaves.length (sortLeaves presented) :=
          ⟨hstrict, hb, fun x hx => hpl x (hperm.mem_iff.1 hx)⟩
        have htn := climbAll_nodes hN htop hnodes
        have hle := halfUp_treeDepth_le t.leaves.length
        obtain ⟨rv, hrv, rfl⟩ := Option.map_eq_some_iff.1 hr
        obtain ⟨r', hr', hlayer⟩ := merkleRoot_isSome (H := h.hash) t.leaves (by
          intro h0
          rw [h0] at hrv
          simp [merkleRoot, treeDepth, layerUp] at hrv)
        obtain rfl : rv = r' := by rw [hrv] at hr'; exact Option.some.inj hr'
        have hag : Agrees (layerUp h.hash (treeDepth t.leaves.length) t.leaves) top.1 := by
          intro x hx
          have hx0 : x.1 = 0 := by have := htn.bound x hx; omega
          match htl : top.1 with
          | [] => rw [htl] at hx; cases hx
          | [y] =>
            rw [htl] at hx hhead
            rw [List.mem_singleton] at hx; subst hx
            rw [hx0, hlayer]
            simpa using hhead.symm
          | y :: z :: l =>
            have hs := htn.sorted
            rw [htl] at hs
            have h1 := (List.pairwise_cons.1 hs).1 z (by simp)
            have h2 := htn.bound y (by rw [htl]; simp)
            have h3 := htn.bound z (by rw [htl]; simp)
            omega
        rcases climbAll_binding hN htop hnodes rfl hlen hag with ha | hc
        · exact .inl fun x hx => ha x (hperm.mem_iff.2 hx)
        · exact .inr hc
    · cases hv

/-- **C19** Two presented leaves with the same position are always rejected. -/
theorem C19_duplicates_rejected (checked : Bool) (p : MerkleProof) (h : HashAlg) (root : TypedHash)
    (presented : List (Nat × Digest)) (hdup : ¬ (presented.map (·.1)).Nodup) :
    p.verify checked h root presented = .error .duplicate := by
  unfold MerkleProof.verify
  simp only
  rw [if_pos]
  intro hn
  exact hdup (((sortLeaves_perm presented).map (·.1)).nodup_iff.1 hn)

/-- **C19** Nothing is accepted without at least one leaf. -/
theorem C19_empty_rejected (checked : Bool) (p : MerkleProof) (h : HashAlg) (root : TypedHash) :
    p.verify checked h root [] ≠ .ok () := by
  have hc : ∀ k n ps, climbAll h.hash k n [] ps = some ([], ps) := by
    intro k
    induction k with
    | zero => intros; rfl
    | succ k ih => intro n ps; simp [climbAll, climb, ih]
  simp [MerkleProof.verify, sortLeaves, rsRoot, hc]

/-- Example for `C19_binding`: an accepted proof for two leaves of a tree of three. -/
example : (⟨1, 3, [[2, 2]]⟩ : MerkleProof).verify true toyHash
    ⟨1, [1, 4]⟩ [(2, [3, 3]), (0, [1, 1])] = .ok () ∧
    (MerkleTree.mk 1 [[1, 1], [2, 2], [3, 3]]).root toyHash = some ⟨1, [1, 4]⟩ ∧ OutLen 2 toyHash := by
  have hd : treeDepth 3 = 2 := by
    simp [treeDepth, Nat.clog_of_two_le]
  have hs : sortLeaves [(2, [3, 3]), (0, [1, 1])] = [(0, [1, 1]), (2, [3, 3])] := by decide
  refine ⟨?_, ?_, fun x => rfl⟩
  · simp [MerkleProof.verify, hs, rsRoot, hd, climbAll, climb, toyHash, halfUp]
  · simp [MerkleTree.root, merkleRoot, hd, layerUp, parentLayer, toyHash]

/-! ## C20: what goes wrong when the leaf count is not fixed -/

/-- **C20** (Merkle part, negative) If one honest leaf is the hash of `pre ++ r`, where `r` is the root
of any complete tree of `2 ^ d` leaves chosen by an adversary, then any of those leaves verify against
the honest root, with another leaf count. -/
theorem C20_merkle_graft (checked : Bool) (t : MerkleTree) (h : HashAlg) (root : TypedHash)
    (forged : List Digest) (d j : Nat) (pre r : Digest) (idxs : List Nat)
    (hsize : 2 ≤ t.leaves.length) (hr : t.root h = some root)
    (hj : t.leaves[j]? = some (h.hash (pre ++ r)))
    (hf : forged.length = 2 ^ d) (hfr : layerUp h.hash d forged = [r])
    (hi : ValidIndices forged.length idxs) :
    ∃ p : MerkleProof, ∃ offset, p.verify checked h root
      ((leavesAt forged idxs).map fun x => (offset + x.1, x.2)) = .ok () := by
  obtain ⟨hne, hs, hb⟩ := hi
  obtain ⟨rv, hrv, rfl⟩ := Option.map_eq_some_iff.1 hr
  refine ⟨⟨t.alg, 2 ^ (d + 1) * t.leaves.length, helperNodes h.hash d forged idxs ++
    pre :: helperNodes h.hash (treeDepth t.leaves.length) t.leaves [j]⟩, 2 ^ d * (2 * j + 1), ?_⟩
  have hg := graft checked t.leaves forged d j pre r idxs hsize hj hf hfr hs hb hne
  have hst : (shiftNodes (2 ^ d * (2 * j + 1)) (nodesOf forged idxs)).Pairwise
      (fun a b => a.1 < b.1) := by
    simp only [shiftNodes, nodesOf, List.map_map, List.pairwise_map, Function.comp_apply]
    exact hs.imp (by intro a b hab; omega)
  have e : ((leavesAt forged idxs).map fun x => (2 ^ d * (2 * j + 1) + x.1, x.2)) =
      shiftNodes (2 ^ d * (2 * j + 1)) (nodesOf forged idxs) := rfl
  rw [e]
  unfold MerkleProof.verify
  simp only [sortLeaves_of_sorted _ (hst.imp Nat.le_of_lt)]
  rw [if_neg (by rw [not_not]; exact List.pairwise_map.2 (hst.imp Nat.ne_of_lt)), if_pos]
  rw [hg]; exact hrv

/-- Example: a two-leaf honest tree whose second leaf is `hash (pre ++ r)`, and a forged tree of two
leaves with root `r`. -/
example : ∃ p : MerkleProof, ∃ offset, p.verify true toyHash
    ⟨1, [7, 4]⟩ ((leavesAt [[8, 8], [9, 9]] [0, 1]).map fun x => (offset + x.1, x.2)) = .ok () :=
  C20_merkle_graft true (MerkleTree.mk 1 [[7, 7], toyHash.hash ([5] ++ [8, 4])]) toyHash ⟨1, [7, 4]⟩
    [[8, 8], [9, 9]] 1 1 [5] [8, 4] [0, 1] (by decide)
    (by simp [MerkleTree.root, merkleRoot, treeDepth, Nat.clog_of_two_le, layerUp, parentLayer, toyHash])
    rfl rfl (by simp [layerUp, parentLayer, toyHash]) (by simp [ValidIndices])

/-- **C20** (Merkle part, conditional negative) If the dependency does not refuse positions outside the
tree, then for every tree of `2 ^ D` leaves, a leaf of the adversary's choice is accepted next to all
the honest ones, with the honest leaf count. -/
theorem C20_merkle_extra_leaf_if_unchecked (t : MerkleTree) (h : HashAlg) (root : TypedHash) (D : Nat)
    (hsize : t.leaves.length = 2 ^ (D + 1)) (hr : t.root h = some root) (extra : Digest)
    (ps : List Digest) (hps : ps.length = D + 1) :
    (⟨t.alg, t.leaves.length, ps⟩ : MerkleProof).verify false h root
      (leavesAt t.leaves (List.range t.leaves.length) ++ [(t.leaves.length, extra)]) = .ok () := by
  obtain ⟨rv, hrv, rfl⟩ := Option.map_eq_some_iff.1 hr
  have hst : (leavesAt t.leaves (List.range t.leaves.length) ++
      [(t.leaves.length, extra)]).Pairwise (fun a b => a.1 < b.1) := by
    rw [List.pairwise_append]
    refine ⟨?_, by simp, ?_⟩
    · simp only [leavesAt, List.pairwise_map]
      exact List.pairwise_lt_range
    · intro a ha b hb
      simp only [leavesAt, List.mem_map, List.mem_range] at ha
      obtain ⟨i, hi, rfl⟩ := ha
      rw [List.mem_singleton.1 hb]; exact hi
  unfold MerkleProof.verify
  simp only [sortLeaves_of_sorted _ (hst.imp Nat.le_of_lt)]
  rw [if_neg (by rw [not_not]; exact List.pairwise_map.2 (hst.imp Nat.ne_of_lt)), if_pos]
  obtain ⟨r', hr', hlayer⟩ := merkleRoot_isSome (H := h.hash) t.leaves (by
    intro h0; rw [h0] at hsize; simp at hsize; exact absurd hsize (Nat.ne_of_lt (Nat.two_pow_pos _)))
  obtain rfl : rv = r' := by rw [hrv] at hr'; exact Option.some.inj hr'
  have hd : treeDepth t.leaves.length = D + 1 := by
    unfold treeDepth
    rw [hsize, if_neg (by rw [Nat.pow_succ]; have := Nat.two_pow_pos D; omega)]
    exact Nat.clog_pow 2 (D + 1) (by decide)
  unfold rsRoot
  rw [if_neg (by simp), hd]
  obtain ⟨y, rest, hc⟩ := climbAll_full_extra (H := h.hash) (D + 1) t.leaves extra ps hsize
    (by omega)
  rw [hd] at hlayer
  rw [hlayer] at hc
  have e : leavesAt t.leaves (List.range t.leaves.length) = enumNodes 0 t.leaves := by
    rw [enumNodes_eq]; rfl
  rw [e, hc]
  rfl

/-- Example: a one-hash proof makes a third leaf pass for a tree of two leaves. -/
example : (⟨1, 2, [[0, 0]]⟩ : MerkleProof).verify false toyHash ⟨1, [7, 4]⟩
    [(0, [7, 7]), (1, [8, 8]), (2, [6, 6])] = .ok () :=
  C20_merkle_extra_leaf_if_unchecked (MerkleTree.mk 1 [[7, 7], [8, 8]]) toyHash ⟨1, [7, 4]⟩ 0 rfl
    (by simp [MerkleTree.root, merkleRoot, treeDepth, Nat.clog_of_two_le, layerUp, parentLayer, toyHash])
    [6, 6] [[0, 0]] rfl

/-- **C20** (Merkle part, positive, partial) Whatever leaf count the proof claims: if no honest leaf
preimage and no presented preimage has the length of two concatenated hashes, and all proof hashes have
the hash length, then every presented preimage is the preimage of an honest leaf, or a collision is
exhibited.  Missing for the full claim: the length conditions are not enforced by the code, and the
position is not bound. -/
theorem C20_merkle_values_partial (checked : Bool) (N : Nat) (t : MerkleTree) (h : HashAlg)
    (root : TypedHash) (p : MerkleProof) (honest : List Bytes) (presented : List (Nat × Bytes))
    (hN : OutLen N h) (hleaves : t.leaves = honest.map h.hash)
    (hhon : ∀ m ∈ honest, m.length ≠ 2 * N) (hpre : ∀ x ∈ presented, x.2.length ≠ 2 * N)
    (hps : ∀ q ∈ p.hashes, q.length = N) (hr : t.root h = some root)
    (hin : checked = true ∨ ∀ x ∈ presented, x.1 < p.leafCount)
    (hv : p.verify checked h root (presented.map fun x => (x.1, h.hash x.2)) = .ok ()) :
    (∀ x ∈ presented, x.2 ∈ honest) ∨ Collision h := by
  have hlen : AllLen N t.leaves := by
    intro l hl
    rw [hleaves, List.mem_map] at hl
    obtain ⟨m, _, rfl⟩ := hl
    exact hN m
  have hleaf : ∀ x y : Bytes, x.length = N → y.length = N → h.hash (x ++ y) ∈ t.leaves →
      HashCollision h.hash := by
    intro x y hx hy hm
    rw [hleaves, List.mem_map] at hm
    obtain ⟨m, hm, he⟩ := hm
    refine ⟨m, x ++ y, ?_, he⟩
    rintro rfl
    exact hhon _ hm (by rw [List.length_append, hx, hy]; omega)
  generalize hpl : (presented.map fun x => (x.1, h.hash x.2)) = pl at hv
  have hplen : ∀ x ∈ pl, x.2.length = N := by
    intro x hx
    rw [← hpl, List.mem_map] at hx
    obtain ⟨m, _, rfl⟩ := hx
    exact hN _
  unfold MerkleProof.verify at hv
  simp only at hv
  split at hv
  · cases hv
  rename_i hnd
  rw [not_not] at hnd
  split at hv
  · rename_i hroot
    have hperm := sortLeaves_perm pl
    have hstrict := sorted_strict (sortLeaves_sorted pl) hnd
    unfold rsRoot at hroot
    split at hroot
    · cases hroot
    rename_i hchk
    have hb : ∀ x ∈ sortLeaves pl, x.1 < p.leafCount := by
      rcases hin with hc | hb
      · subst hc
        simp only [Bool.true_and, List.any_eq_true, decide_eq_true_eq, not_exists, not_and,
          Nat.not_le] at hchk
        exact hchk
      · intro x hx
        have hx' := hperm.mem_iff.1 hx
        rw [← hpl, List.mem_map] at hx'
        obtain ⟨m, hm, rfl⟩ := hx'
        exact hb m hm
    obtain ⟨top, htop, hhead⟩ := Option.bind_eq_some_iff.1 hroot
    have hnodes : Nodes N p.leafCount (sortLeaves pl) :=
      ⟨hstrict, hb, fun x hx => hplen x (hperm.mem_iff.1 hx)⟩
    have htn := climbAll_nodes hN htop hnodes
    have hle := halfUp_treeDepth_le p.leafCount
    obtain ⟨rv, hrv, rfl⟩ := Option.map_eq_some_iff.1 hr
    have htopIn : ∀ x ∈ top.1, InTree h.hash t.leaves x.2 := by
      intro x hx
      match htl : top.1 with
      | [] => rw [htl] at hx; cases hx
      | [y] =>
        rw [htl] at hx hhead
        rw [List.mem_singleton] at hx; subst hx
        have : x.2 = rv := by simpa using hhead
        rw [this]; exact merkleRoot_inTree hrv
      | y :: z :: l =>
        have hs := htn.sorted
        rw [htl] at hs
        have h1 := (List.pairwise_cons.1 hs).1 z (by simp)
        have h2 := htn.bound y (by rw [htl]; simp)
        have h3 := htn.bound z (by rw [htl]; simp)
        omega
    rcases climbAll_inTree hN hlen hleaf htop hnodes.len hps htopIn with hall | hc
    · by_cases hcol : Collision h
      · exact .inr hcol
      · left
        intro x hx
        have hin := hall (x.1, h.hash x.2) (hperm.mem_iff.2 (by
          rw [← hpl]; exact List.mem_map.2 ⟨x, hx, rfl⟩))
        generalize hz : h.hash x.2 = z at hin
        cases hin with
        | leaf hl =>
          rw [hleaves, List.mem_map] at hl
          obtain ⟨m, hm, he⟩ := hl
          by_cases hmx : m = x.2
          · exact hmx ▸ hm
          · exact absurd ⟨m, x.2, hmx, he.trans hz.symm⟩ hcol
        | @node a b ha hb =>
          refine absurd ⟨x.2, a ++ b, ?_, hz⟩ hcol
          intro hxe
          refine hpre x hx ?_
          rw [hxe, List.length_append, ha.len hN hlen, hb.len hN hlen]; omega
    · exact .inr hc
  · cases hv

/-- Example for `C20_merkle_values_partial`: an accepted proof for one of two honest leaves. -/
example : (⟨1, 2, [toyHash.hash [8]]⟩ : MerkleProof).verify true toyHash ⟨1, [7, 4]⟩
      ([(0, [7])].map fun x => (x.1, toyHash.hash x.2)) = .ok () ∧
    (MerkleTree.mk 1 ([[7], [8]].map toyHash.hash)).root toyHash = some ⟨1, [7, 4]⟩ ∧
    (∀ m ∈ [[7], [8]], (m : Bytes).length ≠ 2 * 2) := by
  have hd : treeDepth 2 = 1 := by simp [treeDepth, Nat.clog_of_two_le]
  have hs : sortLeaves [(0, [7, 1])] = [(0, [7, 1])] := by decide
  refine ⟨?_, ?_, by decide⟩
  · simp [MerkleProof.verify, toyHash, hs, rsRoot, hd, climbAll, climb]
  · simp [MerkleTree.root, merkleRoot, hd, layerUp, parentLayer, toyHash]

end Tlsn
