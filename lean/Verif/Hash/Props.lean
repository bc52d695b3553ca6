import Verif.Hash.Model
import Mathlib.Data.List.Basic

/-! # Properties of hash values (C26) -/

namespace Tlsn

theorem padded_toList (b : Bytes) (h : b.length ≤ hashMaxLen) :
    (padded b).toList = b ++ List.replicate (hashMaxLen - b.length) 0 := by
  apply List.ext_getElem?
  intro i
  rw [List.getElem?_append]
  unfold padded
  by_cases hi : i < hashMaxLen
  · rw [List.getElem?_eq_getElem (by simpa using hi)]
    simp only [Vector.getElem_toList, Vector.getElem_ofFn]
    split
    · rename_i hl; rw [List.getElem?_eq_getElem hl]; rfl
    · rename_i hl
      rw [List.getElem?_eq_none (by omega), List.getElem?_eq_getElem (by simp; omega)]
      simp
  · rw [List.getElem?_eq_none (by simpa using hi)]
    rw [if_neg (by omega), List.getElem?_eq_none (by simp; omega)]

theorem padded_asBytes (b : Bytes) (h : b.length ≤ hashMaxLen) :
    HashRepr.asBytes ⟨padded b, b.length⟩ = b := by
  simp only [HashRepr.asBytes, padded_toList b h, List.take_left']

theorem visitSeq_spec (b : Bytes) (value : Vector Byte hashMaxLen) (pre : Bytes)
    (hv : value = padded pre) (hp : pre.length ≤ hashMaxLen) :
    visitSeq value pre.length b =
      if pre.length + b.length ≤ hashMaxLen then
        .ok ⟨padded (pre ++ b), pre.length + b.length⟩ else .error () := by
  subst hv
  induction b generalizing pre with
  | nil => simp [visitSeq, hp]
  | cons x t ih =>
    rw [visitSeq]
    split
    · rw [if_neg (by rw [List.length_cons]; omega)]
    · have hset : (padded pre).setIfInBounds pre.length x = padded (pre ++ [x]) := by
        apply Vector.ext
        intro i hi
        rw [Vector.getElem_setIfInBounds]
        unfold padded
        simp only [Vector.getElem_ofFn]
        split
        · rename_i he; subst he; simp
        · rename_i he
          rcases Nat.lt_or_gt_of_ne he with hlt | hgt
          · rw [List.getElem?_eq_none (l := pre) (by omega),
              List.getElem?_eq_none (l := pre ++ [x]) (by simp; omega)]
          · rw [List.getElem?_append_left hgt]
      have := ih (pre ++ [x]) (by simp; omega)
      rw [hset]
      simp only [List.length_append, List.length_cons, List.length_nil, Nat.zero_add,
        List.append_assoc, List.cons_append, List.nil_append] at this
      rw [this]
      simp only [List.length_cons, Nat.add_assoc, Nat.add_comm 1]

theorem deserialize_eq (b : Bytes) : HashRepr.deserialize b =
    if b.length ≤ hashMaxLen then .ok ⟨padded b, b.length⟩ else .error () := by
  have h0 : Vector.replicate hashMaxLen 0 = padded [] := by
    apply Vector.ext
    intro i hi
    simp [padded]
  have := visitSeq_spec b (Vector.replicate hashMaxLen 0) [] h0 (by simp)
  simpa [HashRepr.deserialize] using this

/-- Every hash value obtainable through the API is the padding of a byte string of at most 64 bytes. -/
theorem reachable_eq {h : HashRepr} (hr : h.Reachable) :
    ∃ b : Bytes, b.length ≤ hashMaxLen ∧ h = ⟨padded b, b.length⟩ := by
  cases hr with
  | @new b _ hb =>
    unfold HashRepr.new at hb
    split at hb
    · rename_i hl; exact ⟨b, hl, (Option.some.inj hb).symm⟩
    · cases hb
  | @tryFrom b _ hb =>
    unfold HashRepr.tryFrom at hb
    split at hb
    · cases hb
    · rename_i hl; exact ⟨b, by omega, (Except.ok.inj hb).symm⟩
  | @deserialize b _ hb =>
    rw [deserialize_eq] at hb
    split at hb
    · rename_i hl; exact ⟨b, hl, (Except.ok.inj hb).symm⟩
    · cases hb
  | default =>
    refine ⟨[], by simp, ?_⟩
    have : Vector.replicate hashMaxLen 0 = padded [] := by
      apply Vector.ext
      intro i hi
      simp [padded]
    simp [HashRepr.default, this]

/-- **C26** Byte strings of at most 64 bytes, and only those, become hash values, by construction, by
conversion and by deserialization alike, and the hash value holds exactly these bytes. -/
theorem C26_accepts_iff (b : Bytes) :
    ((∃ h, HashRepr.new b = some h) ↔ b.length ≤ 64) ∧
    ((∃ h, HashRepr.tryFrom b = .ok h) ↔ b.length ≤ 64) ∧
    ((∃ h, HashRepr.deserialize b = .ok h) ↔ b.length ≤ 64) ∧
    (∀ h, HashRepr.new b = some h → h.asBytes = b) ∧
    (∀ h, HashRepr.tryFrom b = .ok h → h.asBytes = b) ∧
    (∀ h, HashRepr.deserialize b = .ok h → h.asBytes = b) := by
  rw [deserialize_eq]
  unfold HashRepr.new HashRepr.tryFrom
  by_cases hb : b.length ≤ hashMaxLen
  · have hb' : ¬ b.length > hashMaxLen := by omega
    have h64 : b.length ≤ 64 := hb
    simp only [if_pos hb, if_neg hb', Option.some.injEq, exists_eq', Except.ok.injEq, h64,
      forall_eq', padded_asBytes b hb, and_self]
  · have hb' : b.length > hashMaxLen := by omega
    have h64 : ¬ b.length ≤ 64 := hb
    simp [hb, hb', h64]

/-- **C26** Serialization round trip: what was written is read back as the same value, so that two hash
values with the same serialization are equal. -/
theorem C26_round_trip (h : HashRepr) (hr : h.Reachable) :
    HashRepr.deserialize h.asBytes = .ok h := by
  obtain ⟨b, hb, rfl⟩ := reachable_eq hr
  rw [padded_asBytes b hb, deserialize_eq, if_pos hb]

/-- **C26** Two hash values obtained through the API are equal (as the derived comparison, which looks at
the whole array, decides) exactly if their bytes are equal; and they never have more than 64 bytes. -/
theorem C26_eq_iff (h k : HashRepr) (hh : h.Reachable) (hk : k.Reachable) :
    (h = k ↔ h.asBytes = k.asBytes) ∧ h.asBytes.length = h.len ∧ h.len ≤ 64 := by
  refine ⟨⟨fun e => by rw [e], fun e => ?_⟩, ?_⟩
  · have h1 := C26_round_trip h hh
    rw [e, C26_round_trip k hk] at h1
    exact (Except.ok.inj h1).symm
  · obtain ⟨b, hb, rfl⟩ := reachable_eq hh
    rw [padded_asBytes b hb]
    exact ⟨rfl, hb⟩

/-- Example: values of different lengths that agree on the array are different; the hypotheses are met. -/
example : ∃ h k, HashRepr.new [1, 0] = some h ∧ HashRepr.tryFrom [1] = .ok k ∧ h ≠ k ∧
    h.value = k.value ∧ h.Reachable ∧ k.Reachable := by
  refine ⟨⟨padded [1, 0], 2⟩, ⟨padded [1], 1⟩, rfl, rfl, ?_, ?_, .new (b := [1, 0]) rfl,
    .tryFrom (b := [1]) rfl⟩
  · intro h
    exact absurd (congrArg HashRepr.len h) (by decide)
  · apply Vector.toList_inj.1
    rw [padded_toList _ (by decide), padded_toList _ (by decide)]
    decide

end Tlsn
