import Verif.Sdk.Path

/-! # C50, C51: what a handler selects -/

namespace Tlsn.Sdk

theorem mem_ranges {s : RangeSet} {i : Nat} : RangesMem i s.ranges ↔ i ∈ s := Iff.rfl

theorem rangesMem_nil {i : Nat} : ¬ RangesMem i [] := by simp [RangesMem]

theorem rangesMem_flatMap {α : Type} {l : List α} {f : α → List Rng} {i : Nat} :
    RangesMem i (l.flatMap f) ↔ ∃ x ∈ l, RangesMem i (f x) := by
  simp only [RangesMem, List.mem_flatMap]
  constructor
  · rintro ⟨r, ⟨x, h1, h2⟩, h3⟩; exact ⟨x, h1, r, h2, h3⟩
  · rintro ⟨x, h1, r, h2, h3⟩; exact ⟨r, ⟨x, h1, h2⟩, h3⟩

theorem headerRanges_iff {h : Header} {hk hv : Bool} {i : Nat} :
    RangesMem i (headerRanges h hk hv) ↔ Shown hk hv h.span h.value i := by
  cases hk <;> cases hv <;> simp [headerRanges, Shown, mem_ranges, Header.withoutValue]

theorem kvRanges_iff {kv : KeyValue} {hk hv : Bool} {i : Nat} :
    RangesMem i (kvRanges kv hk hv) ↔ Shown hk hv kv.span kv.value.span i := by
  cases hk <;> cases hv <;> simp [kvRanges, Shown, mem_ranges, KeyValue.withoutValue]

/-- The value at a path: what remains once no pair was returned. -/
theorem extractJsonValue_eq {root : Json} {path : Text} (hk hv : Bool) :
    extractJsonValue root path hk hv = match root.get path with
      | none => .error .pathNotFound
      | some v => .ok (match (if !hk && !hv then findMember root path else none) with
        | some kv => kv.span.ranges
        | none => v.span.ranges) := by
  unfold extractJsonValue
  cases root.get path with
  | none => rfl
  | some v =>
    by_cases h : (!hk && !hv) = true
    · simp only [h, if_true]; cases findMember root path <;> rfl
    · simp only [h]; rfl

/-- Both branches of the code together: the pair if there is one, the value otherwise. -/
theorem jsonBody_eq {root : Json} {path : Text} {hk hv : Bool} (hb : (hk && hv) = false) (hp : PlainPath path) :
    extractJsonPath root path hk hv =
    (match findMember root path with
      | some kv => .ok (kvRanges kv hk hv)
      | none => match root.get path with
        | none => .error .pathNotFound
        | some v => .ok v.span.ranges : Extracted) := by
  unfold extractJsonPath
  rw [extractJsonValue_eq]
  cases hm : findMember root path with
  | none => cases hk <;> cases hv <;> first | rfl | simp
  | some kv =>
    have hr := ((findMember_iff hp).1 hm).resolves
    rw [get_iff.2 hr]
    cases hk <;> cases hv <;> first | rfl | cases hb

theorem jsonSelects_iff {root : Json} {path : Text} {hk hv : Bool} (hp : PlainPath path) {i : Nat} :
    JsonSelects root path hk hv i ↔ match findMember root path with
      | some kv => Shown hk hv kv.span kv.value.span i
      | none => ∃ v, root.get path = some v ∧ i ∈ v.span := by
  have hn : ∀ parts, PathParts path parts → parts = splitDots path := fun _ => pathParts_unique
  cases hm : findMember root path with
  | some kv =>
    have hk' := (findMember_iff hp).1 hm
    constructor
    · rintro ⟨parts, h1, h2 | h2⟩
      · obtain ⟨kv', h3, h4⟩ := h2
        rw [hn _ h1] at h3
        rwa [names_unique h3 hk'] at h4
      · exact absurd ⟨kv, by rw [hn _ h1]; exact hk'⟩ h2.1
    · intro h
      exact ⟨_, splitDots_parts path, .inl ⟨kv, hk', h⟩⟩
  | none =>
    have hno : ¬ ∃ kv, NamesMember root (splitDots path) kv := by
      rintro ⟨kv, h⟩
      rw [(findMember_iff hp).2 h] at hm; cases hm
    constructor
    · rintro ⟨parts, h1, h2 | h2⟩
      · obtain ⟨kv', h3, h4⟩ := h2
        rw [hn _ h1] at h3
        exact absurd ⟨_, h3⟩ hno
      · obtain ⟨_, v, h3, h4⟩ := h2
        rw [hn _ h1] at h3
        exact ⟨v, get_iff.2 h3, h4⟩
    · rintro ⟨v, h1, h2⟩
      exact ⟨_, splitDots_parts path, .inr ⟨hno, v, get_iff.1 h1, h2⟩⟩

theorem hidesKey_of {h : Handler} {p : Params} (hp : h.params = some p) : h.hidesKey = p.hideKey.getD false := by
  simp [Handler.hidesKey, hp]

theorem hidesValue_of {h : Handler} {p : Params} (hp : h.params = some p) : h.hidesValue = p.hideValue.getD false := by
  simp [Handler.hidesValue, hp]

theorem wantsJson_iff {h : Handler} {p : Params} (hp : h.params = some p) :
    h.wantsJson ↔ p.contentType = some jsonType := by
  simp [Handler.wantsJson, hp]

theorem wantsPath_iff {h : Handler} {p : Params} (hp : h.params = some p) {path : Text} :
    h.wantsPath path ↔ p.path = some path := by
  simp [Handler.wantsPath, hp]

/-- Extraction from a JSON body: what it selects and when it fails. -/
theorem jsonBody_spec {h : Handler} {p : Params} (hp : h.params = some p) (hpl : h.Plain) {b : Body} :
    (∀ rs, extractJsonBody p b = .ok rs → ∀ i, (RangesMem i rs ↔ ∃ root path, b.content = some root ∧ h.wantsPath path ∧
      JsonSelects root path h.hidesKey h.hidesValue i)) ∧
    ((∃ rs, extractJsonBody p b = .ok rs) ↔ (¬ (h.hidesKey = true ∧ h.hidesValue = true) ∧
      ∃ root path parts v, b.content = some root ∧ h.wantsPath path ∧ PathParts path parts ∧ Resolves root parts v)) := by
  unfold extractJsonBody
  cases hc : b.content with
  | none => simp
  | some root =>
    cases hpa : p.path with
    | none => simp [wantsPath_iff hp, hpa]
    | some path =>
      have hpp : PlainPath path := hpl path ((wantsPath_iff hp).2 hpa)
      simp only [← hidesKey_of hp, ← hidesValue_of hp, wantsPath_iff hp, hpa, Option.some.injEq]
      generalize h.hidesKey = hk
      generalize h.hidesValue = hv
      cases hb : hk && hv with
      | true =>
        have : hk = true ∧ hv = true := by simpa using hb
        simp [this]
      | false =>
        have hnb : ¬ (hk = true ∧ hv = true) := by
          rintro ⟨rfl, rfl⟩; cases hb
        simp only [Bool.false_eq_true, if_false]
        rw [jsonBody_eq hb hpp]
        constructor
        · intro rs hrs i
          have : (∃ root' path', root = root' ∧ path = path' ∧ JsonSelects root' path' hk hv i) ↔
              JsonSelects root path hk hv i :=
            ⟨fun ⟨_, _, h1, h2, h3⟩ => h1 ▸ h2 ▸ h3, fun h => ⟨_, _, rfl, rfl, h⟩⟩
          rw [this, jsonSelects_iff hpp]
          revert hrs
          cases findMember root path with
          | some kv => intro hrs; cases hrs; exact kvRanges_iff
          | none =>
            cases root.get path with
            | none => intro hrs; cases hrs
            | some v => intro hrs; cases hrs; simp [mem_ranges]
        · have e1 : (∃ root' path' parts v, root = root' ∧ path = path' ∧ PathParts path' parts ∧
              Resolves root' parts v) ↔ ∃ v, root.get path = some v := by
            constructor
            · rintro ⟨_, _, parts, v, rfl, rfl, h1, h2⟩
              exact ⟨v, get_iff.2 (pathParts_unique h1 ▸ h2)⟩
            · rintro ⟨v, h⟩
              exact ⟨root, path, _, v, rfl, rfl, splitDots_parts path, get_iff.1 h⟩
          rw [e1]
          cases hm : findMember root path with
          | some kv =>
            have hr := get_iff.2 ((findMember_iff hpp).1 hm).resolves
            simp [hnb, hr]
          | none => cases root.get path <;> simp [hnb]

/-- **C50** The positions extracted for a handler are exactly those its part, key, path, pattern and hide options
describe. -/
theorem C50_selected (re : RegexEngine) (h : Handler) (m : HttpMessage) (raw : Bytes) (hp : h.Plain) (rs : List Rng)
    (hrs : extractRanges re h m raw = .ok rs) (i : Nat) : RangesMem i rs ↔ Selects re h m raw i := by
  unfold extractRanges at hrs
  unfold Selects
  cases hpart : h.part <;> simp only [hpart] at hrs ⊢
  · cases hrs; exact mem_ranges
  · unfold extractProtocol at hrs
    cases hs : m.start with
    | request s me ta =>
      rw [hs] at hrs
      cases hrs
      simp [mem_ranges, StartLine.span, and_assoc]
    | status s co re =>
      rw [hs] at hrs
      cases hrs
      simp [mem_ranges, StartLine.span, and_assoc]
  · unfold extractMethod at hrs
    cases hs : m.start <;> rw [hs] at hrs <;> cases hrs
    exact ⟨fun h => ⟨_, _, _, rfl, h⟩, fun ⟨_, _, _, h1, h2⟩ => by cases h1; exact h2⟩
  · unfold extractRequestTarget at hrs
    cases hs : m.start <;> rw [hs] at hrs <;> cases hrs
    exact ⟨fun h => ⟨_, _, _, rfl, h⟩, fun ⟨_, _, _, h1, h2⟩ => by cases h1; exact h2⟩
  · unfold extractStatusCode at hrs
    cases hs : m.start <;> rw [hs] at hrs <;> cases hrs
    exact ⟨fun h => ⟨_, _, _, rfl, h⟩, fun ⟨_, _, _, h1, h2⟩ => by cases h1; exact h2⟩
  · unfold extractHeaders at hrs
    split at hrs
    · cases hrs
    · cases hrs
      rw [rangesMem_flatMap]
      simp only [headerRanges_iff]
      cases h.params.bind (·.key) with
      | none => simp
      | some key =>
        simp only [HttpMessage.headersWithName, List.mem_filter, decide_eq_true_eq, Option.some.injEq, SameName]
        constructor
        · rintro ⟨x, ⟨h1, h2⟩, h3⟩; exact ⟨x, h1, fun k hk => hk ▸ h2, h3⟩
        · rintro ⟨x, h1, h2, h3⟩; exact ⟨x, ⟨h1, h2 _ rfl⟩, h3⟩
  · unfold extractBody at hrs
    cases hb : m.body with
    | none => rw [hb] at hrs; cases hrs; simp [rangesMem_nil]
    | some b =>
      rw [hb] at hrs
      simp only at hrs
      have e : ∀ P : Body → Prop, (∃ b', some b = some b' ∧ P b') ↔ P b :=
        fun P => ⟨fun ⟨_, h1, h2⟩ => by cases h1; exact h2, fun h => ⟨b, rfl, h⟩⟩
      rw [e]
      cases hpar : h.params with
      | none =>
        rw [hpar] at hrs
        cases hrs
        have : ¬ h.wantsJson := by simp [Handler.wantsJson, hpar]
        simp [this, mem_ranges]
      | some p =>
        rw [hpar] at hrs
        simp only at hrs
        split at hrs
        · rename_i hct
          have hw := (wantsJson_iff hpar).2 hct
          simp only [hw, true_implies, not_true_eq_false, false_implies, and_true]
          exact (jsonBody_spec hpar hp).1 rs hrs i
        · rename_i hct
          have hw : ¬ h.wantsJson := fun h' => hct ((wantsJson_iff hpar).1 h')
          cases hrs
          simp [hw, mem_ranges]
  · unfold extractAll at hrs
    have whole : ∀ rs : List Rng, (.ok [(0, raw.length)] : Extracted) = .ok rs → (RangesMem i rs ↔ i < raw.length) := by
      rintro _ ⟨⟩; simp [RangesMem]
    cases hpar : h.params with
    | none =>
      rw [hpar] at hrs
      have : ∀ pat, ¬ h.wantsRegex pat := by simp [Handler.wantsRegex, hpar]
      simp [this, whole _ hrs]
    | some p =>
      rw [hpar] at hrs
      simp only at hrs
      split at hrs
      · rename_i hct
        cases hre : p.regex with
        | none =>
          rw [hre] at hrs
          have : ∀ pat, ¬ h.wantsRegex pat := by simp [Handler.wantsRegex, hpar, hre]
          simp [this, whole _ hrs]
        | some pat =>
          rw [hre] at hrs
          have hw : ∀ pat', h.wantsRegex pat' ↔ pat' = pat := by
            intro pat'; simp [Handler.wantsRegex, hpar, hct, hre, eq_comm]
          simp only [hw, forall_eq, exists_eq, not_true_eq_false, false_implies, and_true]
          cases hf : re pat with
          | none => simp only [hf] at hrs; cases hrs
          | some f => simp only [hf] at hrs; cases hrs; simp
      · rename_i hct
        have : ∀ pat, ¬ h.wantsRegex pat := by simp [Handler.wantsRegex, hpar, hct]
        simp [this, whole _ hrs]

/-- **C50** Extraction succeeds exactly for the handlers that apply to the message: method and target of a request, status
code of a response, at most one of the two hide options, a JSON body with a path that leads somewhere, a valid
pattern. -/
theorem C50_succeeds_iff (re : RegexEngine) (h : Handler) (m : HttpMessage) (raw : Bytes) (hp : h.Plain) :
    (∃ rs, extractRanges re h m raw = .ok rs) ↔ Applies re h m := by
  unfold extractRanges Applies
  cases hpart : h.part <;> simp only
  · simp [extractStartLine]
  · unfold extractProtocol; cases m.start <;> simp
  · unfold extractMethod; cases m.start <;> simp
  · unfold extractRequestTarget; cases m.start <;> simp
  · unfold extractStatusCode; cases m.start <;> simp
  · unfold extractHeaders; cases h.hidesKey <;> cases h.hidesValue <;> simp
  · unfold extractBody
    cases hb : m.body with
    | none => simp
    | some b =>
      cases hpar : h.params with
      | none => simp [Handler.wantsJson, hpar]
      | some p =>
        simp only [wantsJson_iff hpar, Option.some.injEq, forall_eq']
        split
        · rename_i hct
          simp only [hct, true_implies]
          exact (jsonBody_spec hpar hp).2
        · rename_i hct
          simp [hct]
  · unfold extractAll
    cases hpar : h.params with
    | none => simp [Handler.wantsRegex, hpar]
    | some p =>
      simp only [Handler.wantsRegex, hpar, Option.some.injEq]
      by_cases hct : p.contentType = some regexType
      · cases hre : p.regex with
        | none => simp [hct, hre]
        | some pat =>
          simp only [hct, if_true]
          cases hf : re pat <;> simp [hre, hf, hct]
      · simp [hct]

/-- A selected position lies inside the message. -/
theorem selects_below {re : RegexEngine} {h : Handler} {m : HttpMessage} {raw : Bytes} {i : Nat}
    (hm : MessageBelow raw.length m) (hre : ∀ pat f, re pat = some f → ∀ x r, r ∈ f x → r.1 ≤ r.2 ∧ r.2 ≤ x.length)
    (hs : Selects re h m raw i) : i < raw.length := by
  have shown : ∀ {hk hv whole value}, Below raw.length whole → Below raw.length value → Shown hk hv whole value i →
      i < raw.length := by
    intro hk hv whole value h1 h2 h3
    cases hk
    · exact h1 i (h3.2 rfl).1
    · exact h2 i (h3.1 rfl)
  unfold Selects at hs
  cases hpart : h.part <;> simp only [hpart] at hs
  · exact hm.start i hs
  · exact hm.start i hs.1
  · obtain ⟨s, me, ta, h1, h2⟩ := hs; exact (hm.request _ _ _ h1).1 i h2
  · obtain ⟨s, me, ta, h1, h2⟩ := hs; exact (hm.request _ _ _ h1).2 i h2
  · obtain ⟨s, co, rn, h1, h2⟩ := hs; exact (hm.status _ _ _ h1).1 i h2
  · obtain ⟨x, h1, _, h2⟩ := hs
    exact shown (hm.headers x h1).1 (hm.headers x h1).2 h2
  · obtain ⟨b, h1, h2, h3⟩ := hs
    obtain ⟨h4, h5⟩ := hm.body b h1
    by_cases hw : h.wantsJson
    · obtain ⟨root, path, h6, _, parts, h7, h8 | h8⟩ := h2 hw
      · obtain ⟨kv, h9, h10⟩ := h8
        obtain ⟨h11, h12⟩ := names_below h9 (h5 _ h6)
        exact shown h11 h12 h10
      · obtain ⟨_, v, h9, h10⟩ := h8
        obtain ⟨h11, _⟩ := resolves_below h9 (h5 _ h6)
        exact h11 i h10
    · exact h4 i (h3 hw)
  · obtain ⟨h1, h2⟩ := hs
    by_cases hw : ∃ pat, h.wantsRegex pat
    · obtain ⟨pat, hw⟩ := hw
      obtain ⟨f, h3, r, h4, h5, h6⟩ := h1 pat hw
      have := hre pat f h3 raw r h4
      omega
    · exact h2 hw

/-- **C50** Every extracted position lies inside the message, if the parser's spans and the engine's matches do. -/
theorem C50_inside (re : RegexEngine) (h : Handler) (m : HttpMessage) (raw : Bytes) (hp : h.Plain)
    (hm : MessageBelow raw.length m)
    (hre : ∀ pat f, re pat = some f → ∀ x r, r ∈ f x → r.1 ≤ r.2 ∧ r.2 ≤ x.length) (rs : List Rng)
    (hrs : extractRanges re h m raw = .ok rs) (i : Nat) (hi : RangesMem i rs) : i < raw.length :=
  selects_below hm hre ((C50_selected re h m raw hp rs hrs i).1 hi)

/-- **C51** Hiding works for object members and headers: with `hideValue` no position of the member's value is
extracted, with `hideKey` nothing but the value is. -/
theorem C51_hides_member_partial (re : RegexEngine) (h : Handler) (m : HttpMessage) (raw : Bytes) (b : Body) (root : Json)
    (path : Text) (parts : List Text) (kv : KeyValue) (hpart : h.part = .body) (hj : h.wantsJson)
    (hb : m.body = some b) (hc : b.content = some root) (hpath : h.wantsPath path) (hpp : PathParts path parts)
    (hne : ∀ p ∈ parts, p ≠ []) (hm : NamesMember root parts kv) (rs : List Rng)
    (hrs : extractRanges re h m raw = .ok rs) (i : Nat) (hi : RangesMem i rs) :
    (h.hidesValue = true → ¬ i ∈ kv.value.span) ∧ (h.hidesKey = true → i ∈ kv.value.span) := by
  have hpl : h.Plain := by
    intro path' hp' parts' hpp'
    obtain ⟨p, h1, h2⟩ := hpath
    obtain ⟨p', h3, h4⟩ := hp'
    rw [h1] at h3; cases h3
    rw [h2] at h4; cases h4
    rw [pathParts_unique hpp', ← pathParts_unique hpp]; exact hne
  have hnb : ¬ (h.hidesKey = true ∧ h.hidesValue = true) := by
    have := (C50_succeeds_iff re h m raw hpl).1 ⟨rs, hrs⟩
    simp only [Applies, hpart] at this
    exact (this hj b hb).1
  have hs := (C50_selected re h m raw hpl rs hrs i).1 hi
  simp only [Selects, hpart] at hs
  obtain ⟨b', h1, h2, -⟩ := hs
  rw [hb] at h1; cases h1
  obtain ⟨root', path', h3, h4, parts', h5, h6⟩ := h2 hj
  rw [hc] at h3; cases h3
  obtain ⟨p, h7, h8⟩ := hpath
  obtain ⟨p', h9, h10⟩ := h4
  rw [h7] at h9; cases h9
  rw [h8] at h10; cases h10
  rw [pathParts_unique h5, ← pathParts_unique hpp] at h6
  rcases h6 with ⟨kv', h11, h12⟩ | ⟨h11, -⟩
  · rw [names_unique h11 hm] at h12
    refine ⟨fun hv => ?_, h12.1⟩
    cases hk : h.hidesKey
    · exact (h12.2 hk).2 hv
    · exact absurd ⟨hk, hv⟩ hnb
  · exact absurd ⟨kv, hm⟩ h11

/-- **C51** Array elements cannot be hidden: whatever the document, if the path leads to an element of an array, exactly
the bytes of the value are extracted (and, with `action: REVEAL`, revealed), also when `hideValue` is set. -/
theorem C51_array_element (re : RegexEngine) (h : Handler) (m : HttpMessage) (raw : Bytes) (b : Body) (root : Json)
    (path : Text) (front : List Text) (key : Text) (span : RangeSet) (elems : Jsons) (n : Nat) (v : Json)
    (hpart : h.part = .body) (hj : h.wantsJson) (hb : m.body = some b) (hc : b.content = some root)
    (hpath : h.wantsPath path) (hpp : PathParts path (front ++ [key])) (hne : ∀ p ∈ front ++ [key], p ≠ [])
    (harr : Resolves root front (.array span elems)) (hn : parseUsize key = some n)
    (hv : elems.toList[n]? = some v) (hnb : ¬ (h.hidesKey = true ∧ h.hidesValue = true)) :
    ∃ rs, extractRanges re h m raw = .ok rs ∧ ∀ i, RangesMem i rs ↔ i ∈ v.span := by
  have hres : Resolves root (front ++ [key]) v := resolves_append harr (.element hn hv (.here v))
  have hpl : h.Plain := by
    intro path' hp' parts' hpp'
    obtain ⟨p, h1, h2⟩ := hpath
    obtain ⟨p', h3, h4⟩ := hp'
    rw [h1] at h3; cases h3
    rw [h2] at h4; cases h4
    rw [pathParts_unique hpp', ← pathParts_unique hpp]; exact hne
  have hno : ¬ ∃ kv, NamesMember root (front ++ [key]) kv := by
    rintro ⟨kv, f, k, s, e, h1, h2, -⟩
    obtain ⟨rfl, -⟩ := List.append_inj' h1 rfl
    have := (getParts_iff.2 harr).symm.trans (getParts_iff.2 h2)
    cases this
  obtain ⟨rs, hrs⟩ := (C50_succeeds_iff re h m raw hpl).2 (by
    simp only [Applies, hpart]
    intro _ b' hb'
    rw [hb] at hb'; cases hb'
    exact ⟨hnb, root, path, _, v, hc, hpath, hpp, hres⟩)
  refine ⟨rs, hrs, fun i => ?_⟩
  rw [C50_selected re h m raw hpl rs hrs i]
  simp only [Selects, hpart]
  constructor
  · rintro ⟨b', h1, h2, -⟩
    rw [hb] at h1; cases h1
    obtain ⟨root', path', h3, h4, parts', h5, h6⟩ := h2 hj
    rw [hc] at h3; cases h3
    obtain ⟨p, h7, h8⟩ := hpath
    obtain ⟨p', h9, h10⟩ := h4
    rw [h7] at h9; cases h9
    rw [h8] at h10; cases h10
    rw [pathParts_unique h5, ← pathParts_unique hpp] at h6
    rcases h6 with ⟨kv', h11, _⟩ | ⟨-, w, h11, h12⟩
    · exact absurd ⟨kv', h11⟩ hno
    · have := (getParts_iff.2 hres).symm.trans (getParts_iff.2 h11)
      cases this
      exact h12
  · intro hi
    exact ⟨b, hb, fun _ => ⟨root, path, hc, hpath, _, hpp, .inr ⟨hno, v, hres, hi⟩⟩, fun h => absurd hj h⟩

end Tlsn.Sdk
