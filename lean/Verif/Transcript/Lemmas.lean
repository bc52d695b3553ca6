import Verif.Transcript.Model

/-! Helper lemmas about the slice loops of the transcript model. -/

namespace Tlsn

/-- Ranges are usable for indexing a buffer of length `n`. -/
def InBounds (rs : List Rng) (n : Nat) : Prop := ∀ r ∈ rs, r.1 ≤ r.2 ∧ r.2 ≤ n

theorem RangeSet.inBounds {s : RangeSet} {n : Nat} (h : s.endD ≤ n) : InBounds s.ranges n := by
  intro r hr
  have h1 := s.canon.nonempty r hr
  have h2 : r.2 - 1 ∈ s := ⟨r, hr, by omega, by omega⟩
  have := RangeSet.mem_lt_endD h2
  omega

theorem RangeSet.endD_le_of_inBounds {s : RangeSet} {n : Nat} (h : InBounds s.ranges n) :
    s.endD ≤ n := by
  rw [RangeSet.endD_le_iff]
  rintro i ⟨r, hr, h1, h2⟩
  have := h r hr; omega

theorem rangesMem_cons {r : Rng} {l : List Rng} {i : Nat} :
    RangesMem i (r :: l) ↔ (r.1 ≤ i ∧ i < r.2) ∨ RangesMem i l := by
  simp [RangesMem]

/-! ### copyRanges -/

theorem copyRanges_isSome {src : Bytes} {rs : List Rng} {dst : Bytes}
    (h : InBounds rs src.length) (h' : InBounds rs dst.length) :
    ∃ d, copyRanges src rs dst = some d := by
  induction rs generalizing dst with
  | nil => exact ⟨dst, rfl⟩
  | cons r rs ih =>
    have h1 := h r (by simp)
    have h2 := h' r (by simp)
    have hs := slice_isSome h1.1 h1.2
    have hw : ∃ d, writeAt dst r.1 ((src.take r.2).drop r.1) = some d := by
      simp [writeAt]; omega
    obtain ⟨d, hd⟩ := hw
    have hl := writeAt_length hd
    obtain ⟨e, he⟩ := ih (dst := d) (fun x hx => h x (by simp [hx]))
      (fun x hx => by rw [hl]; exact h' x (by simp [hx]))
    exact ⟨e, by simp [copyRanges, hs, hd, he]⟩

theorem copyRanges_spec {src : Bytes} {rs : List Rng} {dst d : Bytes}
    (h : copyRanges src rs dst = some d) :
    d.length = dst.length ∧ InBounds rs src.length ∧ InBounds rs dst.length ∧
      ∀ i, d[i]? = if RangesMem i rs then src[i]? else dst[i]? := by
  induction rs generalizing dst with
  | nil =>
    simp only [copyRanges, Option.some.injEq] at h; subst h
    simp [InBounds, RangesMem]
  | cons r rs ih =>
    simp only [copyRanges, Option.bind_eq_bind, Option.bind_eq_some_iff] at h
    obtain ⟨s, hs, d1, hd1, hrest⟩ := h
    obtain ⟨h1, h2, h3, h4⟩ := ih hrest
    have hl := writeAt_length hd1
    have hb := writeAt_bound hd1
    have hsl := slice_length hs
    obtain ⟨ha, hb', _⟩ := slice_eq_some.1 hs
    refine ⟨by omega, ?_, ?_, ?_⟩
    · intro x hx
      rcases List.mem_cons.1 hx with rfl | hx
      · exact ⟨ha, hb'⟩
      · exact h2 x hx
    · intro x hx
      rcases List.mem_cons.1 hx with rfl | hx
      · omega
      · have := h3 x hx; omega
    · intro i
      rw [h4 i, writeAt_getElem? hd1 i]
      by_cases hm : RangesMem i rs
      · simp [hm, rangesMem_cons]
      · simp only [hm, if_false, rangesMem_cons, or_false]
        by_cases hr : r.1 ≤ i ∧ i < r.2
        · rw [if_pos (by omega), if_pos hr, slice_getElem? hs, if_pos (by omega)]
          congr 1; omega
        · rw [if_neg (by omega), if_neg hr]

theorem copyRanges_none {src : Bytes} {rs : List Rng} {dst : Bytes}
    (h : copyRanges src rs dst = none) : ¬ (InBounds rs src.length ∧ InBounds rs dst.length) := by
  intro ⟨h1, h2⟩
  obtain ⟨d, hd⟩ := copyRanges_isSome h1 h2
  simp [hd] at h

/-! ### gather -/

theorem gather_isSome {data : Bytes} {rs : List Rng} (h : InBounds rs data.length) :
    ∃ b, gather data rs = some b := by
  induction rs with
  | nil => exact ⟨[], rfl⟩
  | cons r rs ih =>
    have h1 := h r (by simp)
    obtain ⟨b, hb⟩ := ih (fun x hx => h x (by simp [hx]))
    exact ⟨_, by simp only [gather, slice_isSome h1.1 h1.2, hb]; rfl⟩

theorem gather_inBounds {data : Bytes} {rs : List Rng} {b : Bytes} (h : gather data rs = some b) :
    InBounds rs data.length := by
  induction rs generalizing b with
  | nil => simp [InBounds]
  | cons r rs ih =>
    simp only [gather, Option.bind_eq_bind, Option.bind_eq_some_iff] at h
    obtain ⟨s, hs, t, ht, _⟩ := h
    obtain ⟨ha, hb', _⟩ := slice_eq_some.1 hs
    intro x hx
    rcases List.mem_cons.1 hx with rfl | hx
    · exact ⟨ha, hb'⟩
    · exact ih ht x hx

theorem gather_eq {data : Bytes} {rs : List Rng} {b : Bytes} (h : gather data rs = some b) :
    b.map some = (rs.flatMap fun r => List.range' r.1 (r.2 - r.1)).map (data[·]?) := by
  induction rs generalizing b with
  | nil => simp only [gather, Option.some.injEq] at h; subst h; rfl
  | cons r rs ih =>
    simp only [gather, Option.bind_eq_bind, Option.bind_eq_some_iff] at h
    obtain ⟨s, hs, t, ht, hb⟩ := h
    simp only [Option.pure_def, Option.some.injEq] at hb; subst hb
    rw [List.map_append, ih ht, List.flatMap_cons, List.map_append]
    congr 1
    have hl := slice_length hs
    obtain ⟨h1, h2, _⟩ := slice_eq_some.1 hs
    apply List.ext_getElem?
    intro i
    rw [List.getElem?_map, List.getElem?_map, slice_getElem? hs]
    by_cases hi : r.1 + i < r.2
    · rw [if_pos hi, List.getElem?_range' (by omega)]
      have : data[r.1 + i]? = some (data[r.1 + i]'(by omega)) := List.getElem?_eq_getElem _
      simp [this]
    · rw [if_neg hi, List.getElem?_eq_none (by simp; omega)]; rfl

theorem gather_length {data : Bytes} {rs : List Rng} {b : Bytes} (h : gather data rs = some b) :
    b.length = (rs.map fun r => r.2 - r.1).sum := by
  have := congrArg List.length (gather_eq h)
  simpa [List.length_flatMap] using this

/-- `gather` over a range set lists the bytes at the set's positions in ascending order. -/
theorem gather_rangeSet {data : Bytes} {s : RangeSet} {b : Bytes}
    (h : gather data s.ranges = some b) :
    b.map some = s.values.map (data[·]?) ∧ b.length = s.len :=
  ⟨gather_eq h, gather_length h⟩

theorem gather_congr {d d' : Bytes} {s : RangeSet} {b : Bytes}
    (h : gather d s.ranges = some b) (hl : s.endD ≤ d'.length)
    (he : ∀ i ∈ s, d[i]? = d'[i]?) : gather d' s.ranges = some b := by
  obtain ⟨b', hb'⟩ := gather_isSome (RangeSet.inBounds hl)
  have h1 := (gather_rangeSet h).1
  have h2 := (gather_rangeSet hb').1
  have h3 : s.values.map (d[·]?) = s.values.map (d'[·]?) := by
    apply List.map_congr_left
    intro i hi
    exact he i (RangeSet.mem_values.1 hi)
  have h4 : b.map some = b'.map some := by rw [h1, h2, h3]
  have : b = b' := by
    have := congrArg (List.map (fun o : Option Byte => o.getD 0)) h4
    simpa [List.map_map, Function.comp_def] using this
  rw [hb', this]

/-- The gathered bytes determine the bytes at the positions of the set. -/
theorem gather_inj {d d' : Bytes} {s : RangeSet} {b : Bytes}
    (h : gather d s.ranges = some b) (h' : gather d' s.ranges = some b) :
    ∀ i ∈ s, d[i]? = d'[i]? := by
  intro i hi
  have h1 := (gather_rangeSet h).1
  have h2 := (gather_rangeSet h').1
  have h3 : s.values.map (d[·]?) = s.values.map (d'[·]?) := by rw [← h1, ← h2]
  rw [List.map_inj_left] at h3
  exact h3 i (RangeSet.mem_values.2 hi)

/-! ### scatter -/

theorem scatter_isSome {data : Bytes} {rs : List Rng} {off : Nat} {dst : Bytes}
    (h : off + (rs.map fun r => r.2 - r.1).sum ≤ data.length) (h' : InBounds rs dst.length) :
    ∃ d, scatter data rs off dst = some d := by
  induction rs generalizing dst off with
  | nil => exact ⟨dst, rfl⟩
  | cons r rs ih =>
    simp only [List.map_cons, List.sum_cons] at h
    have h2 := h' r (by simp)
    have hs := slice_isSome (l := data) (lo := off) (hi := off + (r.2 - r.1)) (by omega) (by omega)
    have hsl := slice_length hs
    have hw : ∃ d, writeAt dst r.1 ((data.take (off + (r.2 - r.1))).drop off) = some d := by
      unfold writeAt
      rw [if_pos (by rw [hsl]; omega)]
      exact ⟨_, rfl⟩
    obtain ⟨d, hd⟩ := hw
    have hl := writeAt_length hd
    obtain ⟨e, he⟩ := ih (dst := d) (off := off + (r.2 - r.1)) (by omega)
      (fun x hx => by rw [hl]; exact h' x (by simp [hx]))
    exact ⟨e, by simp only [scatter, overwrite, hs, h2, and_self, if_true, Option.bind_eq_bind, Option.bind_some, hd, he]⟩

theorem scatter_spec {data : Bytes} {rs : List Rng} {off : Nat} {dst d : Bytes}
    (h : scatter data rs off dst = some d) :
    d.length = dst.length ∧ InBounds rs dst.length ∧
      (∀ i, ¬ RangesMem i rs → d[i]? = dst[i]?) := by
  induction rs generalizing dst off with
  | nil =>
    simp only [scatter, Option.some.injEq] at h; subst h
    simp [InBounds]
  | cons r rs ih =>
    simp only [scatter, Option.bind_eq_bind, Option.bind_eq_some_iff] at h
    obtain ⟨s, hs, d1, hd1, hrest⟩ := h
    unfold overwrite at hd1
    split at hd1
    case isFalse => simp at hd1
    case isTrue hc =>
      obtain ⟨h1, h3, h4⟩ := ih hrest
      have hl := writeAt_length hd1
      have hsl := slice_length hs
      refine ⟨by omega, ?_, ?_⟩
      · intro x hx
        rcases List.mem_cons.1 hx with rfl | hx
        · exact hc
        · have := h3 x hx; omega
      · intro i hi
        rw [rangesMem_cons, not_or] at hi
        rw [h4 i hi.2, writeAt_getElem? hd1 i, if_neg (by omega)]

/-- The `k`-th position of the set receives the `k`-th data byte. -/
theorem scatter_values {data : Bytes} {rs : List Rng} {off : Nat} {dst d : Bytes}
    (hc : Canon rs) (h : scatter data rs off dst = some d) (k i : Nat)
    (hk : (rs.flatMap fun r => List.range' r.1 (r.2 - r.1))[k]? = some i) :
    d[i]? = data[off + k]? ∧ off + k < data.length := by
  induction rs generalizing dst off k with
  | nil => simp at hk
  | cons r rs ih =>
    simp only [scatter, Option.bind_eq_bind, Option.bind_eq_some_iff] at h
    obtain ⟨s, hs, d1, hd1, hrest⟩ := h
    unfold overwrite at hd1
    split at hd1
    case isFalse => simp at hd1
    case isTrue hb =>
      have hsl := slice_length hs
      obtain ⟨hs1, hs2, _⟩ := slice_eq_some.1 hs
      rw [List.flatMap_cons, List.getElem?_append] at hk
      simp only [List.length_range'] at hk
      split at hk
      · rename_i hlt
        rw [List.getElem?_range' (by omega)] at hk
        simp only [Option.some.injEq] at hk
        have hni : ¬ RangesMem i rs := by
          rintro ⟨x, hx, h1, h2⟩
          have := hc.head_lt x hx
          omega
        rw [(scatter_spec hrest).2.2 i hni, writeAt_getElem? hd1 i, if_pos (by omega),
          slice_getElem? hs, if_pos (by omega)]
        refine ⟨by congr 1; omega, by omega⟩
      · rename_i hge
        obtain ⟨h1, h2⟩ := ih hc.tail hrest (k - (r.2 - r.1)) hk
        have e : off + (r.2 - r.1) + (k - (r.2 - r.1)) = off + k := by omega
        rw [e] at h1 h2
        exact ⟨h1, h2⟩

/-- Scattering gathered bytes is the same as copying the ranges. -/
theorem scatter_gather {src : Bytes} {s : RangeSet} {b dst : Bytes}
    (hg : gather src s.ranges = some b) (hd : s.endD ≤ dst.length) :
    scatter b s.ranges 0 dst = copyRanges src s.ranges dst := by
  have hib := gather_inBounds hg
  obtain ⟨d, hd1⟩ := scatter_isSome (data := b) (rs := s.ranges) (off := 0) (dst := dst)
    (by rw [gather_length hg]; omega) (RangeSet.inBounds hd)
  obtain ⟨d2, hd2⟩ := copyRanges_isSome (dst := dst) hib (RangeSet.inBounds hd)
  rw [hd1, hd2]
  congr 1
  obtain ⟨hl, _, hn⟩ := scatter_spec hd1
  obtain ⟨_, _, _, hp⟩ := copyRanges_spec hd2
  apply List.ext_getElem?
  intro i
  rw [hp i]
  by_cases hm : RangesMem i s.ranges
  · rw [if_pos hm]
    have hv : i ∈ s.values := RangeSet.mem_values.2 hm
    obtain ⟨k, hk⟩ := List.getElem?_of_mem hv
    rw [(scatter_values s.canon hd1 k i hk).1]
    have := congrArg (fun l => l[k]?) (gather_rangeSet hg).1
    simp only [List.getElem?_map, hk, Option.map_some] at this
    rw [Nat.zero_add]
    cases hbk : b[k]? with
    | none => simp [hbk] at this
    | some x => simp only [hbk, Option.map_some, Option.some.injEq] at this; exact this
  · rw [if_neg hm, hn i hm]

/-! ### fillRanges -/

theorem fillRanges_isSome {v : Byte} {rs : List Rng} {dst : Bytes} (h : InBounds rs dst.length) :
    ∃ d, fillRanges v rs dst = some d := by
  induction rs generalizing dst with
  | nil => exact ⟨dst, rfl⟩
  | cons r rs ih =>
    have h2 := h r (by simp)
    have hw : ∃ d, writeAt dst r.1 (List.replicate (r.2 - r.1) v) = some d := by
      simp [writeAt]; omega
    obtain ⟨d, hd⟩ := hw
    have hl := writeAt_length hd
    obtain ⟨e, he⟩ := ih (dst := d) (fun x hx => by rw [hl]; exact h x (by simp [hx]))
    exact ⟨e, by simp [fillRanges, overwrite, h2.1, h2.2, hd, he]⟩

theorem fillRanges_spec {v : Byte} {rs : List Rng} {dst d : Bytes}
    (h : fillRanges v rs dst = some d) :
    d.length = dst.length ∧ InBounds rs dst.length ∧
      ∀ i, d[i]? = if RangesMem i rs then some v else dst[i]? := by
  induction rs generalizing dst with
  | nil =>
    simp only [fillRanges, Option.some.injEq] at h; subst h
    simp [InBounds, RangesMem]
  | cons r rs ih =>
    simp only [fillRanges, Option.bind_eq_bind, Option.bind_eq_some_iff] at h
    obtain ⟨d1, hd1, hrest⟩ := h
    unfold overwrite at hd1
    split at hd1
    case isFalse => simp at hd1
    case isTrue hc =>
      obtain ⟨h1, h3, h4⟩ := ih hrest
      have hl := writeAt_length hd1
      have hb := writeAt_bound hd1
      simp only [List.length_replicate] at hb
      refine ⟨by omega, ?_, ?_⟩
      · intro x hx
        rcases List.mem_cons.1 hx with rfl | hx
        · omega
        · have := h3 x hx; omega
      · intro i
        rw [h4 i, writeAt_getElem? hd1 i]
        simp only [List.length_replicate]
        by_cases hm : RangesMem i rs
        · simp [hm, rangesMem_cons]
        · simp only [hm, if_false, rangesMem_cons, or_false]
          by_cases hr : r.1 ≤ i ∧ i < r.2
          · rw [if_pos (by omega), if_pos hr, List.getElem?_replicate, if_pos (by omega)]
          · rw [if_neg (by omega), if_neg hr]

end Tlsn
