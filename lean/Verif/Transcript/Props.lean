import Verif.Transcript.Lemmas
import Verif.Transcript.Spec
import Mathlib.Data.List.Perm.Subperm

/-!
# Properties C01-C08, C52, C55 of transcripts and partial transcripts
-/

namespace Tlsn

theorem PartialTranscript.wf_iff {p : PartialTranscript} :
    p.WF ↔ p.sentAuthed.endD ≤ p.sent.length ∧ p.receivedAuthed.endD ≤ p.received.length := by
  simp only [PartialTranscript.WF, RangeSet.endD_le_iff]
  constructor
  · intro h; exact ⟨h .sent, h .received⟩
  · rintro ⟨h1, h2⟩ (_ | _) <;> assumption

/-! ## C01 -/

/-- C01: redaction succeeds on in-bounds sets and is exact. -/
theorem C01_to_partial_redacts (t : Transcript) (s r : RangeSet)
    (hs : ∀ i ∈ s, i < t.sent.length) (hr : ∀ i ∈ r, i < t.received.length) :
    ∃ p, t.toPartial s r = some p ∧ Redacts t (bySide s r) p := by
  rw [← RangeSet.endD_le_iff] at hs hr
  obtain ⟨a, ha⟩ := copyRanges_isSome (src := t.sent) (rs := s.ranges)
    (dst := List.replicate t.sent.length 0) (RangeSet.inBounds hs)
    (RangeSet.inBounds (by simpa using hs))
  obtain ⟨b, hb⟩ := copyRanges_isSome (src := t.received) (rs := r.ranges)
    (dst := List.replicate t.received.length 0) (RangeSet.inBounds hr)
    (RangeSet.inBounds (by simpa using hr))
  refine ⟨_, by simp only [Transcript.toPartial, ha, hb]; rfl, ?_⟩
  obtain ⟨la, _, _, pa⟩ := copyRanges_spec ha
  obtain ⟨lb, _, _, pb⟩ := copyRanges_spec hb
  have key : ∀ (S : RangeSet) (d src : Bytes),
      (∀ i, d[i]? = if RangesMem i S.ranges then src[i]? else (List.replicate src.length 0)[i]?) →
      (∀ i, i ∈ S → d[i]? = src[i]?) ∧
      (∀ i, ¬ i ∈ S → i < src.length → d[i]? = some 0) := by
    intro S d src h
    constructor
    · intro i hi; rw [h i]; exact if_pos hi
    · intro i hi hl; rw [h i]; refine (if_neg hi).trans ?_; rw [List.getElem?_replicate, if_pos hl]
  have ka := key s a t.sent pa
  have kb := key r b t.received pb
  constructor
  · rintro (_ | _) <;> simp [PartialTranscript.data, Transcript.data, la, lb]
  · rintro (_ | _) <;> rfl
  · rintro (_ | _) i hi
    · exact ka.1 i hi
    · exact kb.1 i hi
  · rintro (_ | _) i hi hl
    · exact ka.2 i hi hl
    · exact kb.2 i hi hl

/-- C01: redaction panics exactly when a requested position is outside the transcript. -/
theorem C01_to_partial_panics_iff (t : Transcript) (s r : RangeSet) :
    t.toPartial s r = none ↔
      (∃ i ∈ s, t.sent.length ≤ i) ∨ (∃ i ∈ r, t.received.length ≤ i) := by
  constructor
  · intro h
    refine Classical.byContradiction fun hn => ?_
    rw [not_or] at hn
    obtain ⟨p, hp, _⟩ := C01_to_partial_redacts t s r
      (fun i hi => Nat.lt_of_not_le fun h => hn.1 ⟨i, hi, h⟩)
      (fun i hi => Nat.lt_of_not_le fun h => hn.2 ⟨i, hi, h⟩)
    simp [hp] at h
  · intro h
    cases hp : t.toPartial s r with
    | none => rfl
    | some p =>
      exfalso
      simp only [Transcript.toPartial, Option.bind_eq_bind, Option.bind_eq_some_iff] at hp
      obtain ⟨a, ha, b, hb, _⟩ := hp
      have h1 := RangeSet.endD_le_iff.1 (RangeSet.endD_le_of_inBounds (copyRanges_spec ha).2.1)
      have h2 := RangeSet.endD_le_iff.1 (RangeSet.endD_le_of_inBounds (copyRanges_spec hb).2.1)
      rcases h with ⟨i, hi, hl⟩ | ⟨i, hi, hl⟩
      · have := h1 i hi; omega
      · have := h2 i hi; omega

/-- C01: a redaction is determined by lengths, sets and shown bytes. -/
theorem Redacts.unique {t t' : Transcript} {S : Direction → RangeSet} {p p' : PartialTranscript}
    (h : Redacts t S p) (h' : Redacts t' S p')
    (hl : ∀ d, (t.data d).length = (t'.data d).length)
    (he : ∀ d i, i ∈ S d → (t.data d)[i]? = (t'.data d)[i]?) : p = p' := by
  have hd : ∀ d, p.data d = p'.data d := by
    intro d
    apply List.ext_getElem?
    intro i
    by_cases hi : i ∈ S d
    · rw [h.shown d i hi, h'.shown d i hi, he d i hi]
    · by_cases hlt : i < (t.data d).length
      · rw [h.hidden d i hi hlt, h'.hidden d i hi (by rw [← hl d]; exact hlt)]
      · rw [List.getElem?_eq_none (by rw [h.len d]; omega),
          List.getElem?_eq_none (by rw [h'.len d, ← hl d]; omega)]
  have ha : ∀ d, p.authed d = p'.authed d := fun d => by rw [h.authed, h'.authed]
  cases p; cases p'
  have h1 := hd .sent; have h2 := hd .received
  have h3 := ha .sent; have h4 := ha .received
  simp only [PartialTranscript.data, PartialTranscript.authed] at h1 h2 h3 h4
  subst h1 h2 h3 h4; rfl

/-- C01: the redaction does not depend on any byte outside the requested positions. -/
theorem C01_to_partial_noninterference (t t' : Transcript) (s r : RangeSet)
    (hls : t.sent.length = t'.sent.length) (hlr : t.received.length = t'.received.length)
    (hs : ∀ i ∈ s, t.sent[i]? = t'.sent[i]?) (hr : ∀ i ∈ r, t.received[i]? = t'.received[i]?) :
    t.toPartial s r = t'.toPartial s r := by
  by_cases hb : (∀ i ∈ s, i < t.sent.length) ∧ (∀ i ∈ r, i < t.received.length)
  · obtain ⟨p, hp, h⟩ := C01_to_partial_redacts t s r hb.1 hb.2
    obtain ⟨p', hp', h'⟩ := C01_to_partial_redacts t' s r
      (by rw [← hls]; exact hb.1) (by rw [← hlr]; exact hb.2)
    rw [hp, hp']
    congr 1
    refine h.unique h' ?_ ?_
    · rintro (_ | _) <;> assumption
    · rintro (_ | _) <;> assumption
  · have h1 : t.toPartial s r = none := by
      rw [C01_to_partial_panics_iff]
      refine Classical.byContradiction fun hn => ?_
      rw [not_or] at hn
      exact hb ⟨fun i hi => Nat.lt_of_not_le fun h => hn.1 ⟨i, hi, h⟩,
        fun i hi => Nat.lt_of_not_le fun h => hn.2 ⟨i, hi, h⟩⟩
    have h2 : t'.toPartial s r = none := by
      rw [C01_to_partial_panics_iff] at h1 ⊢
      rw [← hls, ← hlr]; exact h1
    rw [h1, h2]

/-- Non-vacuity: two different transcripts with the same two-byte view. -/
example : (Transcript.mk [1, 2, 3] [9]).toPartial (RangeSet.ofRange 0 2) ∅ =
    (Transcript.mk [1, 2, 7] [4]).toPartial (RangeSet.ofRange 0 2) ∅ ∧
    (Transcript.mk [1, 2, 3] [9]).toPartial (RangeSet.ofRange 0 2) ∅ =
      some { sent := [1, 2, 0], received := [0], sentAuthed := RangeSet.ofRange 0 2,
             receivedAuthed := ∅ } := by decide

/-! ## C02 -/

/-- C02: compressing succeeds exactly for well-formed partial transcripts. -/
theorem compress_isSome_iff (p : PartialTranscript) : (∃ c, p.compress = some c) ↔ p.WF := by
  rw [PartialTranscript.wf_iff]
  constructor
  · rintro ⟨c, hc⟩
    simp only [PartialTranscript.compress, Option.bind_eq_bind, Option.bind_eq_some_iff] at hc
    obtain ⟨a, ha, b, hb, _⟩ := hc
    exact ⟨RangeSet.endD_le_of_inBounds (gather_inBounds ha),
      RangeSet.endD_le_of_inBounds (gather_inBounds hb)⟩
  · rintro ⟨h1, h2⟩
    obtain ⟨a, ha⟩ := gather_isSome (RangeSet.inBounds h1)
    obtain ⟨b, hb⟩ := gather_isSome (RangeSet.inBounds h2)
    exact ⟨_, by simp only [PartialTranscript.compress, ha, hb]; rfl⟩

/-- C02: serialize then deserialize yields the redaction of `p`'s own data to its authenticated
sets: lengths, sets and authenticated bytes survive, all other bytes become zero. -/
theorem C02_roundtrip (p : PartialTranscript) (h : p.WF) (hv : p.sent.length ≤ vecLimit ∧ p.received.length ≤ vecLimit) :
    ∃ c q, p.compress = some c ∧ PartialTranscript.deserialize c = .ok q ∧
      Redacts ⟨p.sent, p.received⟩ p.authed q := by
  obtain ⟨h1, h2⟩ := PartialTranscript.wf_iff.1 h
  obtain ⟨a, ha⟩ := gather_isSome (RangeSet.inBounds h1)
  obtain ⟨b, hb⟩ := gather_isSome (RangeSet.inBounds h2)
  obtain ⟨q, hq, hr⟩ := C01_to_partial_redacts ⟨p.sent, p.received⟩ p.sentAuthed p.receivedAuthed
    (RangeSet.endD_le_iff.1 h1) (RangeSet.endD_le_iff.1 h2)
  refine ⟨_, q, by simp only [PartialTranscript.compress, ha, hb]; rfl, ?_, ?_⟩
  · have la : a.length = p.sentAuthed.len := gather_length ha
    have lb : b.length = p.receivedAuthed.len := gather_length hb
    have e1 := scatter_gather (dst := List.replicate p.sent.length 0) ha (by simpa using h1)
    have e2 := scatter_gather (dst := List.replicate p.received.length 0) hb (by simpa using h2)
    simp only [Transcript.toPartial] at hq
    simp only [PartialTranscript.deserialize, Compressed.validate, la, lb]
    rw [if_neg (by simp), if_neg (by omega)]
    simp only [Compressed.decompress]
    rw [if_neg (by omega)]
    simp only [e1, e2, hq, Outcome.ofPanic_some]
  · have : p.authed = bySide p.sentAuthed p.receivedAuthed := by
      funext d; cases d <;> rfl
    rw [this]; exact hr

/-- C02: the round trip is the identity exactly when every unauthenticated byte is zero. -/
theorem C02_roundtrip_id_iff (p : PartialTranscript) (h : p.WF)
    (hv : p.sent.length ≤ vecLimit ∧ p.received.length ≤ vecLimit) :
    (∃ c, p.compress = some c ∧ PartialTranscript.deserialize c = .ok p) ↔
      ∀ d i, ¬ i ∈ p.authed d → i < (p.data d).length → (p.data d)[i]? = some 0 := by
  obtain ⟨c, q, hc, hq, hr⟩ := C02_roundtrip p h hv
  have hdat : ∀ d, (Transcript.mk p.sent p.received).data d = p.data d := by rintro (_ | _) <;> rfl
  constructor
  · rintro ⟨c', hc', hp⟩
    rw [hc] at hc'; cases hc'
    rw [hq] at hp
    simp only [Outcome.ok.injEq] at hp
    subst hp
    intro d i hi hl
    exact hr.hidden d i hi (by rw [hdat]; exact hl)
  · intro hz
    refine ⟨c, hc, ?_⟩
    rw [hq]
    congr 1
    have hp : Redacts ⟨p.sent, p.received⟩ p.authed p :=
      ⟨fun d => by rw [hdat], fun d => rfl, fun d i _ => by rw [hdat],
        fun d i hi hl => hz d i hi (by rw [← hdat]; exact hl)⟩
    exact hr.unique hp (fun _ => rfl) (fun _ _ _ => rfl)

/-- Disagreement witness for C02: filling unauthenticated bytes is lost by serialization. -/
example : ∃ c q, (PartialTranscript.mk [1, 88] [] (RangeSet.ofRange 0 1) ∅).compress = some c ∧
    PartialTranscript.deserialize c = .ok q ∧ q.sent = [1, 0] := by
  refine ⟨⟨[1], [], RangeSet.ofRange 0 1, ∅, 2, 0⟩,
    ⟨[1, 0], [], RangeSet.ofRange 0 1, ∅⟩, ?_, ?_, rfl⟩ <;> decide

/-! ## C03 -/

/-- What a peer sent is consistent: as many bytes as positions, all inside the stated lengths. -/
def Compressed.Consistent (c : Compressed) : Prop :=
  c.sentAuthed.length = c.sentIdx.len ∧ c.receivedAuthed.length = c.recvIdx.len ∧
  (∀ i ∈ c.sentIdx, i < c.sentTotal) ∧ (∀ i ∈ c.recvIdx, i < c.recvTotal)

/-- The stated lengths are possible lengths of a vector. -/
def Compressed.Sized (c : Compressed) : Prop := c.sentTotal ≤ vecLimit ∧ c.recvTotal ≤ vecLimit

theorem validate_eq (c : Compressed) : (c.Consistent → c.validate = .ok c) ∧ (¬ c.Consistent → ∃ e, c.validate = .error e) := by
  simp only [Compressed.Consistent]
  rw [← RangeSet.endD_le_iff, ← RangeSet.endD_le_iff]
  simp only [Compressed.validate]
  constructor
  · intro h
    rw [if_neg (by omega), if_neg (by omega)]
  · intro h
    split
    · exact ⟨_, rfl⟩
    · split
      · exact ⟨_, rfl⟩
      · exact absurd (by omega) h

theorem decompress_isSome (c : Compressed) (h : c.Consistent) (hs : c.Sized) : ∃ p, c.decompress = some p := by
  obtain ⟨h1, h2, h3, h4⟩ := h
  rw [← RangeSet.endD_le_iff] at h3 h4
  obtain ⟨a, ha⟩ := scatter_isSome (data := c.sentAuthed) (rs := c.sentIdx.ranges) (off := 0)
    (dst := List.replicate c.sentTotal 0) (by rw [h1]; simp [RangeSet.len])
    (RangeSet.inBounds (by simpa using h3))
  obtain ⟨b, hb⟩ := scatter_isSome (data := c.receivedAuthed) (rs := c.recvIdx.ranges) (off := 0)
    (dst := List.replicate c.recvTotal 0) (by rw [h2]; simp [RangeSet.len])
    (RangeSet.inBounds (by simpa using h4))
  refine ⟨⟨a, b, c.sentIdx, c.recvIdx⟩, ?_⟩
  simp only [Compressed.decompress]
  rw [if_neg (by unfold Compressed.Sized at hs; omega)]
  simp only [ha, hb]
  rfl

theorem decompress_none (c : Compressed) (hs : ¬ c.Sized) : c.decompress = none := by
  simp only [Compressed.decompress]
  rw [if_pos (by unfold Compressed.Sized at hs; omega)]

/-- C03: deserialization accepts exactly the consistent inputs whose stated lengths a vector can have, and refuses exactly the
inconsistent ones, whatever the peer sent. -/
theorem C03_deserialize_ok_iff (c : Compressed) :
    ((∃ p, PartialTranscript.deserialize c = .ok p) ↔ c.Consistent ∧ c.Sized) ∧
    ((∃ e, PartialTranscript.deserialize c = .err e) ↔ ¬ c.Consistent) := by
  unfold PartialTranscript.deserialize
  by_cases h : c.Consistent
  · rw [(validate_eq c).1 h]
    by_cases hs : c.Sized
    · obtain ⟨p, hp⟩ := decompress_isSome c h hs
      simp [hp, h, hs]
    · simp [decompress_none c hs, h, hs, Outcome.ofPanic]
  · obtain ⟨e, he⟩ := (validate_eq c).2 h
    simp [he, h]

/-- C03, partial: deserialization does not panic if the stated lengths are possible lengths of a vector.  Missing: other
lengths, for which `C03_deserialize_panics` shows the opposite. -/
theorem C03_deserialize_no_panic_partial (c : Compressed) (hs : c.Sized) :
    PartialTranscript.deserialize c ≠ .panic := by
  intro hp
  have := C03_deserialize_ok_iff c
  simp only [hp, reduceCtorEq, exists_false, false_iff, hs, and_true] at this
  exact this.2 this.1

/-- C03, disagreement: a peer that states a length beyond `isize::MAX` and is consistent otherwise makes deserialization panic;
nothing else does. No data is needed for it. -/
theorem C03_deserialize_panics (c : Compressed) :
    (PartialTranscript.deserialize c = .panic ↔ c.Consistent ∧ ¬ c.Sized) ∧
    PartialTranscript.deserialize ⟨[], [], ∅, ∅, 2 ^ 63, 0⟩ = .panic := by
  have key : ∀ c : Compressed, PartialTranscript.deserialize c = .panic ↔ c.Consistent ∧ ¬ c.Sized := by
    intro c
    unfold PartialTranscript.deserialize
    by_cases h : c.Consistent
    · rw [(validate_eq c).1 h]
      by_cases hs : c.Sized
      · obtain ⟨p, hp⟩ := decompress_isSome c h hs
        simp [hp, hs]
      · simp [decompress_none c hs, h, hs, Outcome.ofPanic]
    · obtain ⟨e, he⟩ := (validate_eq c).2 h
      simp [he, h]
  refine ⟨key c, (key _).2 ⟨⟨rfl, rfl, fun i hi => ?_, fun i hi => ?_⟩, fun h => ?_⟩⟩
  · exact absurd hi (RangeSet.not_mem_empty i)
  · exact absurd hi (RangeSet.not_mem_empty i)
  · exact absurd h.1 (by decide)

/-- C03: an accepted partial transcript is well formed, has the declared lengths and sets, and its
`k`-th authenticated position carries the `k`-th transmitted byte, other bytes being zero. -/
theorem C03_deserialize_sound (c : Compressed) (p : PartialTranscript)
    (h : PartialTranscript.deserialize c = .ok p) :
    p.WF ∧ p.sent.length = c.sentTotal ∧ p.received.length = c.recvTotal ∧
    p.sentAuthed = c.sentIdx ∧ p.receivedAuthed = c.recvIdx ∧
    (∀ k i : Nat, c.sentIdx.values[k]? = some i → p.sent[i]? = c.sentAuthed[k]?) ∧
    (∀ k i : Nat, c.recvIdx.values[k]? = some i → p.received[i]? = c.receivedAuthed[k]?) ∧
    (∀ i, ¬ i ∈ c.sentIdx → i < c.sentTotal → p.sent[i]? = some 0) ∧
    (∀ i, ¬ i ∈ c.recvIdx → i < c.recvTotal → p.received[i]? = some 0) := by
  have hcond := (C03_deserialize_ok_iff c).1.1 ⟨p, h⟩
  have hok := (validate_eq c).1 hcond.1
  simp only [Compressed.Consistent] at hcond
  rw [← RangeSet.endD_le_iff, ← RangeSet.endD_le_iff] at hcond
  obtain ⟨⟨c1, c2, c3, c4⟩, hs⟩ := hcond
  simp only [PartialTranscript.deserialize, hok] at h
  cases hd : c.decompress with
  | none => simp [hd] at h
  | some q =>
    simp only [hd, Outcome.ofPanic_some, Outcome.ok.injEq] at h; subst h
    simp only [Compressed.decompress] at hd
    rw [if_neg (by unfold Compressed.Sized at hs; omega)] at hd
    simp only [Option.bind_eq_bind, Option.bind_eq_some_iff] at hd
    obtain ⟨a, ha, b, hb, he⟩ := hd
    simp only [Option.pure_def, Option.some.injEq] at he; subst he
    obtain ⟨la, _, na⟩ := scatter_spec ha
    obtain ⟨lb, _, nb⟩ := scatter_spec hb
    simp only [List.length_replicate] at la lb
    refine ⟨?_, la, lb, rfl, rfl, ?_, ?_, ?_, ?_⟩
    · rw [PartialTranscript.wf_iff]; simp only; omega
    · intro k i hk
      have := (scatter_values c.sentIdx.canon ha k i hk).1
      simpa using this
    · intro k i hk
      have := (scatter_values c.recvIdx.canon hb k i hk).1
      simpa using this
    · intro i hi hl; rw [na i hi, List.getElem?_replicate, if_pos hl]
    · intro i hi hl; rw [nb i hi, List.getElem?_replicate, if_pos hl]

/-- Non-vacuity: an accepted and a rejected input. -/
example : (∃ p, PartialTranscript.deserialize
      ⟨[7, 8], [], RangeSet.ofRange 1 3, ∅, 4, 0⟩ = .ok p ∧ p.sent = [0, 7, 8, 0]) ∧
    PartialTranscript.deserialize ⟨[7, 8], [], RangeSet.ofRange 3 5, ∅, 4, 0⟩
      = .err .outOfBounds := by
  refine ⟨⟨⟨[0, 7, 8, 0], [], RangeSet.ofRange 1 3, ∅⟩, ?_, rfl⟩, ?_⟩ <;> decide

/-! ## C04 -/

/-- C04: merging panics exactly when the lengths differ. -/
theorem C04_union_panics_iff (p o : PartialTranscript) (ho : o.WF) :
    p.unionTranscript o = none ↔
      p.sent.length ≠ o.sent.length ∨ p.received.length ≠ o.received.length := by
  obtain ⟨h1, h2⟩ := PartialTranscript.wf_iff.1 ho
  unfold PartialTranscript.unionTranscript
  split
  · simp_all
  · split
    · simp_all
    · rename_i e1 e2
      simp only [ne_eq, Classical.not_not] at e1 e2
      have d1 : (o.sentAuthed.diff p.sentAuthed).endD ≤ o.sent.length :=
        RangeSet.endD_le_of_subset (fun i hi => (RangeSet.mem_diff.1 hi).1) h1
      have d2 : (o.receivedAuthed.diff p.receivedAuthed).endD ≤ o.received.length :=
        RangeSet.endD_le_of_subset (fun i hi => (RangeSet.mem_diff.1 hi).1) h2
      obtain ⟨a, ha⟩ := copyRanges_isSome (dst := p.sent) (RangeSet.inBounds d1)
        (RangeSet.inBounds (by omega))
      obtain ⟨b, hb⟩ := copyRanges_isSome (dst := p.received) (RangeSet.inBounds d2)
        (RangeSet.inBounds (by omega))
      simp [ha, hb, e1, e2]

/-- C04: pointwise meaning of a merge: old authenticated bytes are kept, new ones come from the
other transcript, everything else is unchanged. -/
theorem C04_union_spec (p o q : PartialTranscript) (h : p.unionTranscript o = some q) :
    ∀ d, (q.data d).length = (p.data d).length ∧ (o.data d).length = (p.data d).length ∧
      (∀ i, i ∈ q.authed d ↔ i ∈ p.authed d ∨ i ∈ o.authed d) ∧
      (∀ i, i ∈ p.authed d → (q.data d)[i]? = (p.data d)[i]?) ∧
      (∀ i, ¬ i ∈ p.authed d → i ∈ o.authed d → (q.data d)[i]? = (o.data d)[i]?) ∧
      (∀ i, ¬ i ∈ p.authed d → ¬ i ∈ o.authed d → (q.data d)[i]? = (p.data d)[i]?) := by
  unfold PartialTranscript.unionTranscript at h
  split at h
  · simp at h
  split at h
  · simp at h
  rename_i e1 e2
  simp only [ne_eq, Classical.not_not] at e1 e2
  simp only [Option.bind_eq_bind, Option.bind_eq_some_iff] at h
  obtain ⟨a, ha, b, hb, he⟩ := h
  simp only [Option.pure_def, Option.some.injEq] at he; subst he
  obtain ⟨la, _, _, pa⟩ := copyRanges_spec ha
  obtain ⟨lb, _, _, pb⟩ := copyRanges_spec hb
  have key : ∀ (P O : RangeSet) (d src dst : Bytes),
      (∀ i, d[i]? = if RangesMem i (O.diff P).ranges then src[i]? else dst[i]?) →
      (∀ i, i ∈ P → d[i]? = dst[i]?) ∧ (∀ i, ¬ i ∈ P → i ∈ O → d[i]? = src[i]?) ∧
      (∀ i, ¬ i ∈ P → ¬ i ∈ O → d[i]? = dst[i]?) := by
    intro P O d src dst hp
    have hm : ∀ i, RangesMem i (O.diff P).ranges ↔ i ∈ O ∧ ¬ i ∈ P :=
      fun i => RangeSet.mem_diff
    refine ⟨?_, ?_, ?_⟩ <;> intro i <;> rw [hp i] <;> simp only [hm]
    · intro h; simp [h]
    · intro h h'; simp [h, h']
    · intro h h'; simp [h']
  rintro (_ | _)
  · exact ⟨la, e1.symm, fun i => RangeSet.mem_union, key _ _ _ _ _ pa⟩
  · exact ⟨lb, e2.symm, fun i => RangeSet.mem_union, key _ _ _ _ _ pb⟩

/-- C04: merging two redactions of one transcript is the redaction of the union of the sets. -/
theorem C04_union_redactions (t : Transcript) (S S' : Direction → RangeSet)
    (p p' : PartialTranscript) (hS' : ∀ d, ∀ i ∈ S' d, i < (t.data d).length)
    (h : Redacts t S p) (h' : Redacts t S' p') :
    ∃ q, p.unionTranscript p' = some q ∧ Redacts t (fun d => (S d).union (S' d)) q := by
  have hwf' : p'.WF := by
    intro d i hi; rw [h'.authed] at hi; rw [h'.len]; exact hS' d i hi
  have hl : ∀ d, (p.data d).length = (p'.data d).length := fun d => by rw [h.len, h'.len]
  cases hq : p.unionTranscript p' with
  | none =>
    exfalso
    rcases (C04_union_panics_iff p p' hwf').1 hq with hh | hh
    · exact hh (hl .sent)
    · exact hh (hl .received)
  | some q =>
    refine ⟨q, rfl, ?_⟩
    have sp := C04_union_spec p p' q hq
    constructor
    · intro d; rw [(sp d).1, h.len]
    · intro d
      apply RangeSet.ext
      intro i
      rw [(sp d).2.2.1 i, h.authed, h'.authed, RangeSet.mem_union]
    · intro d i hi
      obtain ⟨_, _, _, k1, k2, k3⟩ := sp d
      rw [h.authed, h'.authed] at *
      by_cases hm : i ∈ S d
      · rw [k1 i hm, h.shown d i hm]
      · have hm' : i ∈ S' d := by rcases RangeSet.mem_union.1 hi with hh | hh; exact absurd hh hm; exact hh
        rw [k2 i hm hm', h'.shown d i hm']
    · intro d i hi hl
      obtain ⟨_, _, _, k1, k2, k3⟩ := sp d
      rw [h.authed, h'.authed] at *
      rw [RangeSet.mem_union, not_or] at hi
      rw [k3 i hi.1 hi.2, h.hidden d i hi.1 hl]

/-- C04: merging redactions of one transcript does not depend on the order. -/
theorem C04_union_comm (t : Transcript) (S S' : Direction → RangeSet) (p p' : PartialTranscript)
    (hS : ∀ d, ∀ i ∈ S d, i < (t.data d).length) (hS' : ∀ d, ∀ i ∈ S' d, i < (t.data d).length)
    (h : Redacts t S p) (h' : Redacts t S' p') :
    p.unionTranscript p' = p'.unionTranscript p := by
  obtain ⟨q, hq, hr⟩ := C04_union_redactions t S S' p p' hS' h h'
  obtain ⟨q', hq', hr'⟩ := C04_union_redactions t S' S p' p hS h' h
  rw [hq, hq']
  congr 1
  have e : (fun d => (S d).union (S' d)) = (fun d => (S' d).union (S d)) :=
    funext fun d => RangeSet.union_comm _ _
  rw [e] at hr
  exact hr.unique hr' (fun _ => rfl) (fun _ _ _ => rfl)

/-- Non-vacuity: overlapping redactions of a concrete transcript. -/
example :
    let t := Transcript.mk [1, 2, 3, 4] [5]
    let p := (t.toPartial (RangeSet.ofRange 0 2) ∅).get (by decide)
    let p' := (t.toPartial (RangeSet.ofRange 1 3) (RangeSet.ofRange 0 1)).get (by decide)
    p.unionTranscript p' = some ⟨[1, 2, 3, 0], [5], RangeSet.ofRange 0 3, RangeSet.ofRange 0 1⟩ := by
  decide

/-! ## C05 -/

/-- C05: `set_unauthed` succeeds, touches no authenticated byte and overwrites every other byte. -/
theorem C05_set_unauthed (p : PartialTranscript) (v : Byte) :
    ∃ q, p.setUnauthed v = some q ∧ ∀ d, q.authed d = p.authed d ∧
      (q.data d).length = (p.data d).length ∧
      (∀ i, i ∈ p.authed d → (q.data d)[i]? = (p.data d)[i]?) ∧
      (∀ i, ¬ i ∈ p.authed d → i < (p.data d).length → (q.data d)[i]? = some v) := by
  have hb : ∀ d, InBounds (p.unauthed d).ranges (p.data d).length := by
    intro d
    apply RangeSet.inBounds
    rw [RangeSet.endD_le_iff]
    intro i hi
    simp [PartialTranscript.unauthed] at hi
    exact hi.1
  obtain ⟨a, ha⟩ := fillRanges_isSome (v := v) (hb .sent)
  obtain ⟨b, hb'⟩ := fillRanges_isSome (v := v) (hb .received)
  simp only [PartialTranscript.data] at ha hb'
  refine ⟨_, by simp only [PartialTranscript.setUnauthed, ha, hb']; rfl, ?_⟩
  obtain ⟨la, _, pa⟩ := fillRanges_spec ha
  obtain ⟨lb, _, pb⟩ := fillRanges_spec hb'
  have hm : ∀ d i, RangesMem i (p.unauthed d).ranges ↔ i < (p.data d).length ∧ ¬ i ∈ p.authed d := by
    intro d i
    show i ∈ p.unauthed d ↔ _
    simp [PartialTranscript.unauthed]
  rintro (_ | _)
  · refine ⟨rfl, la, ?_, ?_⟩
    · intro i hi; show a[i]? = p.sent[i]?
      rw [pa i, if_neg]; rw [hm]; exact fun h => h.2 hi
    · intro i hi hl; show a[i]? = _
      rw [pa i, if_pos]; rw [hm]; exact ⟨hl, hi⟩
  · refine ⟨rfl, lb, ?_, ?_⟩
    · intro i hi; show b[i]? = p.received[i]?
      rw [pb i, if_neg]; rw [hm]; exact fun h => h.2 hi
    · intro i hi hl; show b[i]? = _
      rw [pb i, if_pos]; rw [hm]; exact ⟨hl, hi⟩

/-- C05: `set_unauthed_range` panics exactly when an unauthenticated position of the range is out of
bounds; otherwise it sets the unauthenticated positions of the range in the given direction and
changes nothing else. -/
theorem C05_set_unauthed_range (p : PartialTranscript) (v : Byte) (d : Direction) (lo hi : Nat) :
    (p.setUnauthedRange v d lo hi = none ↔
      ∃ i, lo ≤ i ∧ i < hi ∧ ¬ i ∈ p.authed d ∧ (p.data d).length ≤ i) ∧
    ∀ q, p.setUnauthedRange v d lo hi = some q →
      (∀ d', q.authed d' = p.authed d') ∧ (∀ d', d' ≠ d → q.data d' = p.data d') ∧
      (q.data d).length = (p.data d).length ∧
      ∀ i, (q.data d)[i]? =
        if lo ≤ i ∧ i < hi ∧ ¬ i ∈ p.authed d then some v else (p.data d)[i]? := by
  have hm : ∀ (A : RangeSet) i, RangesMem i ((RangeSet.ofRange lo hi).diff A).ranges ↔
      lo ≤ i ∧ i < hi ∧ ¬ i ∈ A := by
    intro A i
    show i ∈ (RangeSet.ofRange lo hi).diff A ↔ _
    simp [and_assoc]
  have key : ∀ (A : RangeSet) (dst : Bytes),
      (fillRanges v ((RangeSet.ofRange lo hi).diff A).ranges dst = none ↔
        ∃ i, lo ≤ i ∧ i < hi ∧ ¬ i ∈ A ∧ dst.length ≤ i) := by
    intro A dst
    constructor
    · intro h
      refine Classical.byContradiction fun hn => ?_
      have : ((RangeSet.ofRange lo hi).diff A).endD ≤ dst.length := by
        rw [RangeSet.endD_le_iff]
        intro i hi'
        have := (hm A i).1 hi'
        exact Nat.lt_of_not_le fun hle => hn ⟨i, this.1, this.2.1, this.2.2, hle⟩
      obtain ⟨d, hd⟩ := fillRanges_isSome (v := v) (RangeSet.inBounds this)
      simp [hd] at h
    · rintro ⟨i, h1, h2, h3, h4⟩
      cases hd : fillRanges v ((RangeSet.ofRange lo hi).diff A).ranges dst with
      | none => rfl
      | some e =>
        have hib := RangeSet.endD_le_iff.1 (RangeSet.endD_le_of_inBounds (fillRanges_spec hd).2.1)
        have := hib i ((hm A i).2 ⟨h1, h2, h3⟩)
        omega
  cases d with
  | sent =>
    refine ⟨?_, ?_⟩
    · rw [show (∃ i, lo ≤ i ∧ i < hi ∧ ¬ i ∈ p.authed .sent ∧ (p.data .sent).length ≤ i) ↔ _ from
        (key p.sentAuthed p.sent).symm]
      simp only [PartialTranscript.setUnauthedRange]
      cases fillRanges v ((RangeSet.ofRange lo hi).diff p.sentAuthed).ranges p.sent <;> simp
    · intro q hq
      simp only [PartialTranscript.setUnauthedRange, Option.bind_eq_bind,
        Option.bind_eq_some_iff] at hq
      obtain ⟨a, ha, he⟩ := hq
      simp only [Option.pure_def, Option.some.injEq] at he; subst he
      obtain ⟨la, _, pa⟩ := fillRanges_spec ha
      refine ⟨by rintro (_ | _) <;> rfl, by rintro (_ | _) h; exact absurd rfl h; rfl, la, ?_⟩
      intro i
      show a[i]? = _
      rw [pa i]; simp only [hm]; rfl
  | received =>
    refine ⟨?_, ?_⟩
    · rw [show (∃ i, lo ≤ i ∧ i < hi ∧ ¬ i ∈ p.authed .received ∧
        (p.data .received).length ≤ i) ↔ _ from (key p.receivedAuthed p.received).symm]
      simp only [PartialTranscript.setUnauthedRange]
      cases fillRanges v ((RangeSet.ofRange lo hi).diff p.receivedAuthed).ranges p.received <;> simp
    · intro q hq
      simp only [PartialTranscript.setUnauthedRange, Option.bind_eq_bind,
        Option.bind_eq_some_iff] at hq
      obtain ⟨a, ha, he⟩ := hq
      simp only [Option.pure_def, Option.some.injEq] at he; subst he
      obtain ⟨la, _, pa⟩ := fillRanges_spec ha
      refine ⟨by rintro (_ | _) <;> rfl, by rintro (_ | _) h; rfl; exact absurd rfl h, la, ?_⟩
      intro i
      show a[i]? = _
      rw [pa i]; simp only [hm]; rfl

/-- Non-vacuity. -/
example : (PartialTranscript.mk [1, 0, 0, 4] [] (RangeSet.ofRange 0 1) ∅).setUnauthedRange 88 .sent 0 3
    = some ⟨[1, 88, 88, 4], [], RangeSet.ofRange 0 1, ∅⟩ ∧
    (PartialTranscript.mk [1] [] (RangeSet.ofRange 0 1) ∅).setUnauthedRange 88 .sent 0 3 = none := by
  decide

/-! ## C06 -/

/-- C06: `get` never panics, returns `None` exactly when a position is out of bounds, and otherwise
the bytes at the positions in ascending order. -/
theorem C06_get (t : Transcript) (d : Direction) (idx : RangeSet) :
    ((∃ i ∈ idx, (t.data d).length ≤ i) → t.get d idx = .ok none) ∧
    ((∀ i ∈ idx, i < (t.data d).length) →
      ∃ s, t.get d idx = .ok (some s) ∧ s.idx = idx ∧
        s.data.map some = idx.values.map fun i => (t.data d)[i]?) := by
  constructor
  · rintro ⟨i, hi, hl⟩
    have : ¬ idx.endD ≤ (t.data d).length := fun h => by
      have := RangeSet.endD_le_iff.1 h i hi; omega
    simp only [Transcript.get]
    rw [if_pos (by omega)]
  · intro h
    rw [← RangeSet.endD_le_iff] at h
    obtain ⟨b, hb⟩ := gather_isSome (RangeSet.inBounds h)
    refine ⟨⟨idx, b⟩, ?_, rfl, (gather_rangeSet hb).1⟩
    simp only [Transcript.get]
    rw [if_neg (by omega)]
    simp [hb, Subsequence.new, (gather_rangeSet hb).2]

/-- The positions listed by `values` are the members of the set, each once, ascending. -/
theorem C06_values_spec (idx : RangeSet) :
    idx.values.Pairwise (· < ·) ∧ (∀ i, i ∈ idx.values ↔ i ∈ idx) ∧ idx.values.length = idx.len :=
  ⟨idx.values_sorted, fun _ => RangeSet.mem_values, idx.values_length⟩

/-- C06: `Subsequence::new` (and deserialization) accepts exactly matching sizes. -/
theorem C06_subsequence_new (idx : RangeSet) (data : Bytes) (s : Subsequence) :
    Subsequence.new idx data = some s ↔
      idx.values.length = data.length ∧ s.idx = idx ∧ s.data = data := by
  rw [idx.values_length]
  unfold Subsequence.new
  cases s
  split <;> rename_i h
  · simp [h]
  · simp only [ne_eq, Classical.not_not] at h
    simp [h, eq_comm]

example : (Transcript.mk [10, 11, 12, 13] []).get .sent (RangeSet.ofRanges [(2, 4), (0, 1)])
    = .ok (some ⟨RangeSet.ofRanges [(0, 1), (2, 4)], [10, 12, 13]⟩) := by decide

/-! ## C08 (before C07, which uses it) -/

/-- C08: the exact effect of `union_subsequence`: it panics exactly when the subsequence leaves the
transcript, and otherwise overwrites its positions whether or not they were authenticated. -/
theorem C08_union_subsequence (p : PartialTranscript) (d : Direction) (s : Subsequence)
    (hs : s.idx.len = s.data.length) :
    (p.unionSubsequence d s = none ↔ ∃ i ∈ s.idx, (p.data d).length ≤ i) ∧
    ∀ q, p.unionSubsequence d s = some q →
      (∀ d', d' ≠ d → q.data d' = p.data d' ∧ q.authed d' = p.authed d') ∧
      (q.data d).length = (p.data d).length ∧
      (∀ i, i ∈ q.authed d ↔ i ∈ p.authed d ∨ i ∈ s.idx) ∧
      (∀ k i : Nat, s.idx.values[k]? = some i → (q.data d)[i]? = s.data[k]?) ∧
      (∀ i, ¬ i ∈ s.idx → (q.data d)[i]? = (p.data d)[i]?) := by
  have none_iff : ∀ dst : Bytes, s.copyTo dst = none ↔ ∃ i ∈ s.idx, dst.length ≤ i := by
    intro dst
    constructor
    · intro h
      refine Classical.byContradiction fun hn => ?_
      have hb : s.idx.endD ≤ dst.length := by
        rw [RangeSet.endD_le_iff]
        exact fun i hi => Nat.lt_of_not_le fun hle => hn ⟨i, hi, hle⟩
      obtain ⟨e, he⟩ := scatter_isSome (data := s.data) (rs := s.idx.ranges) (off := 0)
        (dst := dst) (by rw [← hs]; simp [RangeSet.len]) (RangeSet.inBounds hb)
      simp [Subsequence.copyTo, he] at h
    · rintro ⟨i, hi, hl⟩
      cases hc : s.copyTo dst with
      | none => rfl
      | some e =>
        have := RangeSet.endD_le_iff.1
          (RangeSet.endD_le_of_inBounds (scatter_spec hc).2.1) i hi
        omega
  cases d with
  | sent =>
    constructor
    · rw [show (∃ i ∈ s.idx, (p.data .sent).length ≤ i) ↔ _ from (none_iff p.sent).symm]
      simp only [PartialTranscript.unionSubsequence]
      cases s.copyTo p.sent <;> simp
    · intro q hq
      simp only [PartialTranscript.unionSubsequence, Option.bind_eq_bind,
        Option.bind_eq_some_iff] at hq
      obtain ⟨a, ha, he⟩ := hq
      simp only [Option.pure_def, Option.some.injEq] at he; subst he
      obtain ⟨la, _, na⟩ := scatter_spec ha
      refine ⟨by rintro (_ | _) h; exact absurd rfl h; exact ⟨rfl, rfl⟩, la,
        fun i => RangeSet.mem_union, ?_, na⟩
      intro k i hk
      have := (scatter_values s.idx.canon ha k i hk).1
      rw [Nat.zero_add] at this
      exact this
  | received =>
    constructor
    · rw [show (∃ i ∈ s.idx, (p.data .received).length ≤ i) ↔ _ from (none_iff p.received).symm]
      simp only [PartialTranscript.unionSubsequence]
      cases s.copyTo p.received <;> simp
    · intro q hq
      simp only [PartialTranscript.unionSubsequence, Option.bind_eq_bind,
        Option.bind_eq_some_iff] at hq
      obtain ⟨a, ha, he⟩ := hq
      simp only [Option.pure_def, Option.some.injEq] at he; subst he
      obtain ⟨la, _, na⟩ := scatter_spec ha
      refine ⟨by rintro (_ | _) h; exact ⟨rfl, rfl⟩; exact absurd rfl h, la,
        fun i => RangeSet.mem_union, ?_, na⟩
      intro k i hk
      have := (scatter_values s.idx.canon ha k i hk).1
      rw [Nat.zero_add] at this
      exact this

/-- C08: an authenticated byte can change its value under `union_subsequence`. -/
theorem C08_union_subsequence_overwrites :
    ∃ (p q : PartialTranscript) (s : Subsequence), s.idx.len = s.data.length ∧ p.WF ∧
      p.unionSubsequence .sent s = some q ∧ 0 ∈ p.authed .sent ∧ 0 ∈ q.authed .sent ∧
      (p.data .sent)[0]? = some 1 ∧ (q.data .sent)[0]? = some 2 := by
  refine ⟨⟨[1], [], RangeSet.ofRange 0 1, ∅⟩, ⟨[2], [], RangeSet.ofRange 0 1, ∅⟩,
    ⟨RangeSet.ofRange 0 1, [2]⟩, by decide, ?_, by decide, by decide, by decide, rfl, rfl⟩
  rw [PartialTranscript.wf_iff]; decide

/-! ## C07 -/

/-- C07, one step: what an honest operation does to truthfulness and to the authenticated set. -/
theorem C07_step (t : Transcript) (p q : PartialTranscript) (op : PtOp)
    (hl : ∀ d, (p.data d).length = (t.data d).length) (ht : Truthful t p)
    (h : op.apply t p = some q) :
    (∀ d, (q.data d).length = (t.data d).length) ∧ Truthful t q ∧
      ∀ d i, i ∈ q.authed d ↔ i ∈ p.authed d ∨ op.adds t d i := by
  cases op with
  | mergeSub d idx =>
    simp only [PtOp.apply] at h
    by_cases hb : ∀ i ∈ idx, i < (t.data d).length
    · obtain ⟨s, hs, hidx, hdata⟩ := (C06_get t d idx).2 hb
      rw [hs] at h
      simp only at h
      have hlen : s.idx.len = s.data.length := by
        have := congrArg List.length hdata
        simp only [List.length_map, RangeSet.values_length] at this
        rw [hidx, this]
      obtain ⟨h1, h2, h3, h4, h5⟩ := (C08_union_subsequence p d s hlen).2 q h
      have hend := RangeSet.endD_le_iff.2 hb
      refine ⟨?_, ?_, ?_⟩
      · intro d'
        by_cases hd : d' = d
        · subst hd; rw [h2, hl]
        · rw [(h1 d' hd).1, hl]
      · intro d' i hi
        by_cases hd : d' = d
        · subst hd
          by_cases hm : i ∈ s.idx
          · obtain ⟨k, hk⟩ := List.getElem?_of_mem (RangeSet.mem_values.2 hm)
            rw [h4 k i hk]
            have := congrArg (fun l => l[k]?) hdata
            rw [hidx] at hk
            simp only [List.getElem?_map, hk, Option.map_some] at this
            cases hx : s.data[k]? with
            | none => simp [hx] at this
            | some x => simp only [hx, Option.map_some, Option.some.injEq] at this; exact this
          · rw [h5 i hm]
            rcases (h3 i).1 hi with hh | hh
            · exact ht d' i hh
            · exact absurd hh hm
        · rw [(h1 d' hd).1]
          rw [(h1 d' hd).2] at hi
          exact ht d' i hi
      · intro d' i
        by_cases hd : d' = d
        · subst hd; rw [h3 i, hidx]; simp [PtOp.adds, hend]
        · rw [(h1 d' hd).2]; simp [PtOp.adds, Ne.symm hd]
    · have hb' : ∃ i ∈ idx, (t.data d).length ≤ i := by
        refine Classical.byContradiction fun hn => hb fun i hi =>
          Nat.lt_of_not_le fun hle => hn ⟨i, hi, hle⟩
      rw [(C06_get t d idx).1 hb'] at h
      simp only [Option.some.injEq] at h; subst h
      refine ⟨hl, ht, ?_⟩
      intro d' i
      simp only [PtOp.adds]
      have : ¬ idx.endD ≤ (t.data d).length := fun hh => hb (RangeSet.endD_le_iff.1 hh)
      simp [this]
  | mergeRedaction s r =>
    simp only [PtOp.apply, Option.bind_eq_bind, Option.bind_eq_some_iff] at h
    obtain ⟨o, ho, h⟩ := h
    have hnp : ¬ (t.toPartial s r = none) := by simp [ho]
    rw [C01_to_partial_panics_iff, not_or] at hnp
    obtain ⟨o', ho', hr⟩ := C01_to_partial_redacts t s r
      (fun i hi => Nat.lt_of_not_le fun hh => hnp.1 ⟨i, hi, hh⟩)
      (fun i hi => Nat.lt_of_not_le fun hh => hnp.2 ⟨i, hi, hh⟩)
    rw [ho] at ho'; cases ho'
    have sp := C04_union_spec p o q h
    refine ⟨fun d => by rw [(sp d).1, hl], ?_, ?_⟩
    · intro d i hi
      obtain ⟨_, _, k0, k1, k2, k3⟩ := sp d
      by_cases hm : i ∈ p.authed d
      · rw [k1 i hm, ht d i hm]
      · have hm' : i ∈ o.authed d := by
          rcases (k0 i).1 hi with hh | hh; exact absurd hh hm; exact hh
        rw [k2 i hm hm']
        rw [hr.authed] at hm'
        exact hr.shown d i hm'
    · intro d i
      rw [(sp d).2.2.1 i, hr.authed]; rfl
  | setUnauthed v =>
    simp only [PtOp.apply] at h
    obtain ⟨q', hq', hsp⟩ := C05_set_unauthed p v
    rw [h] at hq'; cases hq'
    refine ⟨fun d => by rw [(hsp d).2.1, hl], ?_, ?_⟩
    · intro d i hi
      rw [(hsp d).1] at hi
      rw [(hsp d).2.2.1 i hi, ht d i hi]
    · intro d i; rw [(hsp d).1]; simp [PtOp.adds]
  | setUnauthedRange v d lo hi =>
    simp only [PtOp.apply] at h
    obtain ⟨h1, h2, h3, h4⟩ := (C05_set_unauthed_range p v d lo hi).2 q h
    refine ⟨?_, ?_, ?_⟩
    · intro d'
      by_cases hd : d' = d
      · subst hd; rw [h3, hl]
      · rw [h2 d' hd, hl]
    · intro d' i hi'
      rw [h1] at hi'
      by_cases hd : d' = d
      · subst hd; rw [h4 i, if_neg (fun hh => hh.2.2 hi'), ht d' i hi']
      · rw [h2 d' hd, ht d' i hi']
    · intro d' i; rw [h1]; simp [PtOp.adds]

/-- C07: after any history of honest operations, authenticated bytes are the transcript's bytes and
the authenticated set is exactly what the operations added. -/
theorem C07_history (t : Transcript) (ops : List PtOp) (q : PartialTranscript)
    (h : runPt t ops (PartialTranscript.new t.sent.length t.received.length) = some q) :
    (∀ d, (q.data d).length = (t.data d).length) ∧ Truthful t q ∧
      ∀ d i, i ∈ q.authed d ↔ ∃ op ∈ ops, op.adds t d i := by
  have gen : ∀ (ops : List PtOp) (p q : PartialTranscript),
      (∀ d, (p.data d).length = (t.data d).length) → Truthful t p → runPt t ops p = some q →
      (∀ d, (q.data d).length = (t.data d).length) ∧ Truthful t q ∧
        ∀ d i, i ∈ q.authed d ↔ i ∈ p.authed d ∨ ∃ op ∈ ops, op.adds t d i := by
    intro ops
    induction ops with
    | nil =>
      intro p q hl ht h
      simp only [runPt, Option.some.injEq] at h; subst h
      exact ⟨hl, ht, by simp⟩
    | cons op ops ih =>
      intro p q hl ht h
      simp only [runPt, Option.bind_eq_bind, Option.bind_eq_some_iff] at h
      obtain ⟨p1, hp1, h⟩ := h
      obtain ⟨hl1, ht1, ha1⟩ := C07_step t p p1 op hl ht hp1
      obtain ⟨hl2, ht2, ha2⟩ := ih p1 q hl1 ht1 h
      refine ⟨hl2, ht2, ?_⟩
      intro d i
      rw [ha2 d i, ha1 d i]
      simp [or_assoc]
  obtain ⟨h1, h2, h3⟩ := gen ops _ q (by rintro (_ | _) <;> simp [PartialTranscript.new,
    PartialTranscript.data, Transcript.data]) (by
      rintro (_ | _) i hi <;> exact absurd hi (RangeSet.not_mem_empty i)) h
  refine ⟨h1, h2, fun d i => ?_⟩
  rw [h3 d i]
  have : ¬ i ∈ (PartialTranscript.new t.sent.length t.received.length).authed d := by
    cases d <;> exact RangeSet.not_mem_empty i
  simp [this]

/-- C07: a history whose index sets and fill ranges are in bounds never panics. -/
theorem C07_history_no_panic (t : Transcript) (ops : List PtOp)
    (hr : ∀ s r, PtOp.mergeRedaction s r ∈ ops →
      (∀ i ∈ s, i < t.sent.length) ∧ (∀ i ∈ r, i < t.received.length))
    (hf : ∀ v d lo hi, PtOp.setUnauthedRange v d lo hi ∈ ops → hi ≤ (t.data d).length) :
    ∃ q, runPt t ops (PartialTranscript.new t.sent.length t.received.length) = some q := by
  have gen : ∀ (ops : List PtOp) (p : PartialTranscript),
      (∀ s r, PtOp.mergeRedaction s r ∈ ops →
        (∀ i ∈ s, i < t.sent.length) ∧ (∀ i ∈ r, i < t.received.length)) →
      (∀ v d lo hi, PtOp.setUnauthedRange v d lo hi ∈ ops → hi ≤ (t.data d).length) →
      (∀ d, (p.data d).length = (t.data d).length) → Truthful t p →
      ∃ q, runPt t ops p = some q := by
    intro ops
    induction ops with
    | nil => intro p _ _ _ _; exact ⟨p, rfl⟩
    | cons op ops ih =>
      intro p hr hf hl ht
      have hstep : ∃ q, op.apply t p = some q := by
        cases op with
        | mergeSub d idx =>
          simp only [PtOp.apply]
          by_cases hb : ∀ i ∈ idx, i < (t.data d).length
          · obtain ⟨s, hs, hidx, hdata⟩ := (C06_get t d idx).2 hb
            rw [hs]
            have hlen : s.idx.len = s.data.length := by
              have := congrArg List.length hdata
              simp only [List.length_map, RangeSet.values_length] at this
              rw [hidx, this]
            cases hq : p.unionSubsequence d s with
            | some q => exact ⟨q, hq⟩
            | none =>
              obtain ⟨i, hi, hle⟩ := (C08_union_subsequence p d s hlen).1.1 hq
              rw [hidx] at hi
              have := hb i hi
              rw [hl] at hle
              omega
          · have hb' : ∃ i ∈ idx, (t.data d).length ≤ i := by
              refine Classical.byContradiction fun hn => hb fun i hi =>
                Nat.lt_of_not_le fun hle => hn ⟨i, hi, hle⟩
            rw [(C06_get t d idx).1 hb']
            exact ⟨p, rfl⟩
        | mergeRedaction s r =>
          obtain ⟨h1, h2⟩ := hr s r (by simp)
          obtain ⟨o, ho, hred⟩ := C01_to_partial_redacts t s r h1 h2
          have hwf : o.WF := by
            intro d i hi
            rw [hred.authed] at hi; rw [hred.len]
            cases d
            · exact h1 i hi
            · exact h2 i hi
          cases hq : p.unionTranscript o with
          | some q => exact ⟨q, by simp [PtOp.apply, ho, hq]⟩
          | none =>
            exfalso
            rcases (C04_union_panics_iff p o hwf).1 hq with hh | hh
            · exact hh ((hl .sent).trans (hred.len .sent).symm)
            · exact hh ((hl .received).trans (hred.len .received).symm)
        | setUnauthed v =>
          obtain ⟨q, hq, _⟩ := C05_set_unauthed p v
          exact ⟨q, hq⟩
        | setUnauthedRange v d lo hi =>
          cases hq : p.setUnauthedRange v d lo hi with
          | some q => exact ⟨q, hq⟩
          | none =>
            obtain ⟨i, _, h2, _, h4⟩ := (C05_set_unauthed_range p v d lo hi).1.1 hq
            have := hf v d lo hi (by simp)
            rw [hl] at h4
            omega
      obtain ⟨p1, hp1⟩ := hstep
      obtain ⟨hl1, ht1, _⟩ := C07_step t p p1 op hl ht hp1
      obtain ⟨q, hq⟩ := ih p1 (fun s r hm => hr s r (by simp [hm]))
        (fun v d lo hi hm => hf v d lo hi (by simp [hm])) hl1 ht1
      exact ⟨q, by simp [runPt, hp1, hq]⟩
  exact gen ops _ hr hf (by rintro (_ | _) <;> simp [PartialTranscript.new,
    PartialTranscript.data, Transcript.data]) (by
      rintro (_ | _) i hi <;> exact absurd hi (RangeSet.not_mem_empty i))

/-- Non-vacuity: a history exercising every operation. -/
example : runPt ⟨[1, 2, 3, 4], [5, 6]⟩
    [.mergeSub .sent (RangeSet.ofRange 1 2), .setUnauthed 88,
     .mergeRedaction (RangeSet.ofRange 3 4) (RangeSet.ofRange 0 1),
     .setUnauthedRange 77 .received 0 2, .mergeSub .sent (RangeSet.ofRange 3 9)]
    (PartialTranscript.new 4 2)
    = some ⟨[88, 2, 88, 4], [5, 77], RangeSet.ofRanges [(1, 2), (3, 4)], RangeSet.ofRange 0 1⟩ := by
  decide

/-! ## C52 -/

/-- C52: the reported length is exact iff both directions are shorter than 2^32 bytes. -/
theorem C52_length_exact_iff (t : Transcript) :
    (t.length.sent = t.sent.length ∧ t.length.received = t.received.length) ↔
      t.sent.length < 4294967296 ∧ t.received.length < 4294967296 := by
  simp only [Transcript.length]
  omega

/-- C52: every transcript has a longer one reporting the same length. -/
theorem C52_length_wraps (t : Transcript) :
    ∃ t' : Transcript, t.sent.length < t'.sent.length ∧ t.length = t'.length := by
  obtain ⟨n, hn⟩ : ∃ n, n = 4294967296 := ⟨_, rfl⟩
  refine ⟨⟨t.sent ++ List.replicate n 0, t.received⟩, ?_, ?_⟩
  · simp only [List.length_append, List.length_replicate]; omega
  · simp only [Transcript.length, List.length_append, List.length_replicate,
      TranscriptLength.mk.injEq, and_true]
    omega

/-! ## C55 -/

/-- C55: a partial transcript (with authenticated positions in bounds, which every constructor
guarantees: `C01_to_partial_redacts`, `C03_deserialize_sound`, `C07_history`) reports itself complete
iff every byte of both directions is authenticated. -/
theorem C55_is_complete_iff (p : PartialTranscript) (hp : p.WF) :
    p.isComplete = true ↔ ∀ d i, i < (p.data d).length → i ∈ p.authed d := by
  have key : ∀ d, ((p.authed d).len = (p.data d).length ↔
      ∀ i, i < (p.data d).length → i ∈ p.authed d) := by
    intro d
    have hnd : (p.authed d).values.Nodup :=
      (RangeSet.values_sorted _).imp fun h => Nat.ne_of_lt h
    have hsub : (p.authed d).values ⊆ List.range (p.data d).length := by
      intro i hi
      exact List.mem_range.2 (hp d i (RangeSet.mem_values.1 hi))
    have hsp := List.subperm_of_subset hnd hsub
    rw [← RangeSet.values_length]
    constructor
    · intro h i hi
      have := hsp.perm_of_length_le (by rw [h, List.length_range]; exact Nat.le_refl _)
      exact RangeSet.mem_values.1 (this.mem_iff.2 (List.mem_range.2 hi))
    · intro h
      have h2 := (List.subperm_of_subset (List.nodup_range (n := (p.data d).length))
        (fun i hi => RangeSet.mem_values.2 (h i (List.mem_range.1 hi)))).length_le
      have h1 := hsp.length_le
      rw [List.length_range] at h1 h2
      exact Nat.le_antisymm h1 h2
  simp only [PartialTranscript.isComplete, Bool.and_eq_true, beq_iff_eq]
  constructor
  · rintro ⟨h1, h2⟩ (_ | _)
    · exact (key .sent).1 h1
    · exact (key .received).1 h2
  · intro h
    exact ⟨(key .sent).2 (h .sent), (key .received).2 (h .received)⟩

/-- C55: `contains` says exactly whether all positions are in bounds. -/
theorem C55_contains_iff (p : PartialTranscript) (d : Direction) (idx : RangeSet) :
    p.contains d idx = true ↔ ∀ i ∈ idx, i < (p.data d).length := by
  simp [PartialTranscript.contains, RangeSet.endD_le_iff]

/-- C55: iterating never panics and lists, in order of position, the authenticated bytes of the
direction: the `n`-th item is the byte at the `n`-th smallest authenticated position. -/
theorem C55_iter (p : PartialTranscript) (hp : p.WF) (d : Direction) :
    ∃ (out : Bytes) (pos : List Nat), p.iter d = some out ∧ pos.Pairwise (· < ·) ∧ (∀ i, i ∈ pos ↔ i ∈ p.authed d) ∧
      out.map some = pos.map fun i => (p.data d)[i]? := by
  refine ⟨(p.authed d).values.filterMap fun i => (p.data d)[i]?, (p.authed d).values, ?_,
    RangeSet.values_sorted _, fun i => RangeSet.mem_values, ?_⟩
  all_goals
    have hb : ∀ i ∈ (p.authed d).values, i < (p.data d).length :=
      fun i hi => hp d i (RangeSet.mem_values.1 hi)
    try rw [PartialTranscript.iter]
    generalize (p.authed d).values = l at hb
    induction l with
    | nil => rfl
    | cons a l ih =>
      have ha := hb a (by simp)
      have hl := ih fun i hi => hb i (by simp [hi])
      simp [List.getElem?_eq_getElem ha, hl]

/-- Non-vacuity for C55: a complete and an incomplete transcript, and iteration over two ranges. -/
example : (PartialTranscript.mk [1, 2] [3] (RangeSet.ofRange 0 2) (RangeSet.ofRange 0 1)).isComplete = true ∧
    (PartialTranscript.mk [1, 2] [3] (RangeSet.ofRange 0 2) ∅).isComplete = false ∧
    (PartialTranscript.mk [1, 2, 3] [] (RangeSet.ofRanges [(0, 1), (2, 3)]) ∅).iter .sent = some [1, 3] := by
  decide

end Tlsn
