import Verif.Sdk.Openings
import Verif.Sdk.CommitterProps

/-! # Concrete messages for C50 and C51, and the handlers whose options mislead -/

namespace Tlsn.Sdk

/-- The text of a string literal. -/
def txt (s : String) : Text := s.toList

/-- A set of consecutive positions. -/
def sp (a b : Nat) : RangeSet := RangeSet.ofRanges [(a, b)]

/-- The request `GET /a HTTP/1.1`, one header `Host: x`. -/
def exRequest : HttpMessage where
  span := sp 0 27
  start := .request (sp 0 16) (sp 0 3) (sp 4 6)
  headers := [⟨sp 16 25, txt "Host", sp 22 23⟩]
  body := none

/-- The body `{"name":"bob","tags":["x","y"],"":7}` at position 40. -/
def exJson : Json :=
  .object (sp 40 76) (.cons (sp 41 53) (txt "name") (.string (sp 49 52))
    (.cons (sp 54 70) (txt "tags") (.array (sp 61 70) (.cons (.string (sp 63 64)) (.cons (.string (sp 67 68)) .nil)))
      (.cons (sp 71 75) (txt "") (.number (sp 74 75)) .nil)))

/-- A response with that body. -/
def exResponse : HttpMessage where
  span := sp 0 76
  start := .status (sp 0 17) (sp 9 12) (sp 13 15)
  headers := [⟨sp 17 38, txt "Content-Length", sp 33 35⟩]
  body := some ⟨sp 40 76, some exJson⟩

/-- A parser that knows these two messages. -/
def exParser : HttpParser := ⟨fun _ => some exRequest, fun _ => some exResponse⟩

/-- A regular expression engine with one pattern, matching the first two bytes. -/
def exRegex : RegexEngine := fun pat => if pat = txt "ok" then some fun x => [(0, min 2 x.length)] else none

/-- A JSON handler for the response. -/
def jsonHandler (path : String) (hideKey hideValue : Bool) (action : Action := .reveal) : Handler :=
  let params : Params :=
    { path := some (txt path), contentType := some jsonType, hideKey := some hideKey, hideValue := some hideValue }
  ⟨.received, .body, action, some params⟩

/-- A list of handlers: the target, the header's value committed, a member without its value, a member committed. -/
def exHandlers : List Handler :=
  [⟨.sent, .requestTarget, .reveal, none⟩,
   ⟨.sent, .headers, .hash .sha256, some { key := some (txt "hOST"), hideKey := some true }⟩,
   jsonHandler "name" false true,
   jsonHandler "tags.1" false false (.hash .blake3),
   ⟨.received, .all, .reveal, some { contentType := some regexType, regex := some (txt "ok") }⟩]

/-- The transcript of these messages. -/
def exTranscript : Transcript := ⟨List.replicate 27 0, List.replicate 76 0⟩

/-- C50 on the example: the lists computed. -/
example : (computeReveal exParser exRegex exTranscript.sent exTranscript.received exHandlers).toOption.map
    (fun p => (p.reveal, p.commit)) =
    some (⟨[(4, 6)], [(41, 49), (52, 53), (0, 2)], true⟩,
      some ⟨[⟨22, 23, .sha256⟩], [⟨67, 68, .blake3⟩]⟩) := by decide +kernel

theorem path_plain {path : Text} (h : ∀ p ∈ splitDots path, p ≠ []) : PlainPath path := by
  intro parts hp
  rw [pathParts_unique hp]; exact h

/-- The handlers have plain paths, so the hypotheses of `C50_*` hold. -/
example : ∀ h ∈ exHandlers, h.Plain := by
  intro h hh path hp
  refine path_plain ?_
  obtain ⟨p, h1, h2⟩ := hp
  simp only [exHandlers, List.mem_cons, List.not_mem_nil, or_false] at hh
  rcases hh with rfl | rfl | rfl | rfl | rfl
  · cases h1
  · cases h1; cases h2
  · cases h1; cases h2; decide +kernel
  · cases h1; cases h2; decide +kernel
  · cases h1; cases h2

theorem below_of {n : Nat} {s : RangeSet} (h : ∀ r ∈ s.ranges, r.2 ≤ n) : Below n s := by
  intro i ⟨r, hr, _, h2⟩
  exact Nat.lt_of_lt_of_le h2 (h r hr)

/-- The messages fit their transcript. -/
example : MessageBelow exTranscript.sent.length exRequest := by
  constructor
  · exact below_of (by decide +kernel)
  · exact below_of (by decide +kernel)
  · intro s me ta h; cases h; exact ⟨below_of (by decide +kernel), below_of (by decide +kernel)⟩
  · intro s me ta h; cases h
  · intro x hx
    simp only [exRequest, List.mem_cons, List.not_mem_nil, or_false] at hx
    subst hx
    exact ⟨below_of (by decide +kernel), below_of (by decide +kernel)⟩
  · intro b h; cases h

theorem leaf_below {n : Nat} {v : Json} (h : ∀ r ∈ v.span.ranges, r.2 ≤ n) (ho : ∀ s e, v ≠ .object s e)
    (ha : ∀ s e, v ≠ .array s e) : JsonBelow n v :=
  .mk (below_of h) (fun s e h => (ho s e h).elim) (fun s e h => (ho s e h).elim) (fun s e h => (ha s e h).elim)

theorem exJson_below : JsonBelow 76 exJson := by
  refine .mk (below_of (by decide +kernel)) ?_ ?_ ?_
  · intro s e h kv hkv
    cases h
    simp only [Pairs.toList, List.mem_cons, List.not_mem_nil, or_false] at hkv
    rcases hkv with rfl | rfl | rfl <;> exact below_of (by decide +kernel)
  · intro s e h kv hkv
    cases h
    simp only [Pairs.toList, List.mem_cons, List.not_mem_nil, or_false] at hkv
    rcases hkv with rfl | rfl | rfl
    · exact leaf_below (by decide +kernel) (by simp) (by simp)
    · refine .mk (below_of (by decide +kernel)) (fun s e h => by cases h) (fun s e h => by cases h) ?_
      intro s e h w hw
      cases h
      simp only [Jsons.toList, List.mem_cons, List.not_mem_nil, or_false] at hw
      rcases hw with rfl | rfl <;> exact leaf_below (by decide +kernel) (by simp) (by simp)
    · exact leaf_below (by decide +kernel) (by simp) (by simp)
  · intro s e h; cases h

example : MessageBelow exTranscript.received.length exResponse := by
  constructor
  · exact below_of (by decide +kernel)
  · exact below_of (by decide +kernel)
  · intro s me ta h; cases h
  · intro s me ta h; cases h; exact ⟨below_of (by decide +kernel), below_of (by decide +kernel)⟩
  · intro x hx
    simp only [exResponse, List.mem_cons, List.not_mem_nil, or_false] at hx
    subst hx
    exact ⟨below_of (by decide +kernel), below_of (by decide +kernel)⟩
  · intro b h; cases h
    exact ⟨below_of (by decide +kernel), fun root h => by cases h; exact exJson_below⟩

/-- The hypotheses of `C51_hides_member_partial` hold for `name`. -/
example : NamesMember exJson [txt "name"] ⟨sp 41 53, txt "name", .string (sp 49 52)⟩ ∧
    PathParts (txt "name") [txt "name"] :=
  ⟨⟨[], txt "name", _, _, rfl, .here _, rfl, [], _, rfl, by simp⟩, by simp, by decide, by decide⟩

/-! ## The committers on these messages -/

/-- The first and the last position of an array. -/
def exFrame : ArrayFrame := fun s _ => s.inter (RangeSet.ofRanges [(61, 62), (69, 70)])

/-- C74 on the example: the sets committed for the response, innermost last. -/
example : (commitTranscript exFrame (CommitBuilder.new exTranscript) [] [exResponse]).toOption.map
    (fun b => b.commits.reverse.map fun e => e.1.2.ranges) =
    some [[(0, 76)], [(0, 17), (38, 40)], [(17, 38)], [(17, 33), (35, 38)], [(40, 41), (53, 54), (70, 71), (75, 76)],
      [(41, 49), (52, 53)], [(49, 52)], [(54, 61)], [(61, 70)], [(61, 62), (69, 70)], [(71, 74)], [(74, 75)]] := by
  decide +kernel

theorem mem_sp {a b i : Nat} : i ∈ sp a b ↔ a ≤ i ∧ i < b := by simp [sp]

theorem sp_subset {a b c d : Nat} (h : c ≤ a ∧ b ≤ d) : sp a b ⊆ sp c d := by
  intro i hi; rw [mem_sp] at hi ⊢; omega

theorem sp_apart {a b c d : Nat} (h : b ≤ c ∨ d ≤ a) : Apart (sp a b) (sp c d) := by
  intro i h1 h2; rw [mem_sp] at h1 h2; omega

theorem leaf_nested {v : Json} (ho : ∀ s e, v ≠ .object s e) : Nested v :=
  .mk (fun s e h => (ho s e h).elim) (fun s e h => (ho s e h).elim) (fun s e h => (ho s e h).elim)
    (fun s e h => (ho s e h).elim)

theorem exJson_nested : Nested exJson := by
  refine .mk ?_ ?_ ?_ ?_
  · intro s e h kv hkv
    cases h
    simp only [Pairs.toList, List.mem_cons, List.not_mem_nil, or_false] at hkv
    rcases hkv with rfl | rfl | rfl <;> exact sp_subset (by decide)
  · intro s e h kv hkv
    cases h
    simp only [Pairs.toList, List.mem_cons, List.not_mem_nil, or_false] at hkv
    rcases hkv with rfl | rfl | rfl <;> exact sp_subset (by decide)
  · intro s e h
    cases h
    simp only [Pairs.toList, List.pairwise_cons, List.mem_cons, List.not_mem_nil, or_false, forall_eq_or_imp, forall_eq,
      false_imp_iff, implies_true, List.Pairwise.nil, and_true]
    exact ⟨⟨sp_apart (by decide), sp_apart (by decide)⟩, sp_apart (by decide)⟩
  · intro s e h kv hkv
    cases h
    simp only [Pairs.toList, List.mem_cons, List.not_mem_nil, or_false] at hkv
    rcases hkv with rfl | rfl | rfl <;> exact leaf_nested (by simp)

/-- The hypotheses of `C74_selective`, with the member `name` as a value to withhold. -/
example : MessageNested exResponse ∧ Value exResponse (sp 49 52) := by
  refine ⟨⟨?_, ?_, ?_, ?_⟩, ?_⟩
  · intro s me ta h; cases h
  · intro x hx
    simp only [exResponse, List.mem_cons, List.not_mem_nil, or_false] at hx
    subst hx
    exact sp_subset (by decide)
  · simp [exResponse]
  · intro b h
    cases h
    refine ⟨fun x hx => ?_, fun root h => by cases h; exact ⟨sp_subset (by decide), exJson_nested⟩⟩
    simp only [exResponse, List.mem_cons, List.not_mem_nil, or_false] at hx
    subst hx
    exact sp_apart (by decide)
  · exact .member (kv := ⟨sp 41 53, txt "name", .string (sp 49 52)⟩) rfl rfl (.here (by simp [Pairs.toList]))

/-! ## Options that mislead -/

/-- **C51** Hiding the value of an array element reveals exactly the value. -/
theorem C51_element_revealed : (extractRanges exRegex (jsonHandler "tags.1" false true) exResponse
    exTranscript.received).toOption = some [(67, 68)] ∧
    (exJson.get (txt "tags.1")).map (fun v => v.span.ranges) = some [(67, 68)] := by decide +kernel

/-- **C51** Hiding the value at the empty path reveals the value of the member with the empty name. -/
theorem C51_empty_path : (extractRanges exRegex (jsonHandler "" false true) exResponse
    exTranscript.received).toOption = some [(74, 75)] ∧
    (exJson.get (txt "")).map (fun v => v.span.ranges) = some [(74, 75)] := by decide +kernel

/-- **C51** A path that leads nowhere still selects a member when a part of it is to be hidden: the leading dot is
dropped. -/
theorem C51_leading_dot : (exJson.get (txt ".name")).isNone = true ∧
    (extractRanges exRegex (jsonHandler ".name" false false) exResponse exTranscript.received).toOption = none ∧
    (extractRanges exRegex (jsonHandler ".name" true false) exResponse exTranscript.received).toOption =
      some [(49, 52)] := by decide +kernel

/-- **C50** The `flags` of a handler have no effect on what it selects. -/
theorem C50_flags_ignored (re : RegexEngine) (h : Handler) (p : Params) (hp : h.params = some p) (flags : Option Text)
    (m : HttpMessage) (raw : Bytes) :
    extractRanges re { h with params := some { p with flags := flags } } m raw = extractRanges re h m raw := by
  cases h with
  | mk direction part action params =>
    cases hp
    cases part <;> rfl

/-- **C50** A pattern handler without a pattern, or with a misspelt type, selects the whole transcript. -/
theorem C50_no_pattern (re : RegexEngine) (h : Handler) (m : HttpMessage) (raw : Bytes) (hpart : h.part = .all)
    (hno : ¬ ∃ pattern, h.wantsRegex pattern) :
    ∃ rs, extractRanges re h m raw = .ok rs ∧ ∀ i, RangesMem i rs ↔ i < raw.length := by
  refine ⟨[(0, raw.length)], ?_, ?_⟩
  · unfold extractRanges
    rw [hpart]
    simp only
    unfold extractAll
    cases hp : h.params with
    | none => rfl
    | some p =>
      by_cases hc : p.contentType = some regexType
      · cases hr : p.regex with
        | none => simp [hc, hr]
        | some pat => exact (hno ⟨pat, p, hp, hc, hr⟩).elim
      · simp [hc]
  · intro i; simp [RangesMem]

/-- A pattern under the type `regexp` is such a handler. -/
example : ¬ ∃ pattern, Handler.wantsRegex
    ⟨.sent, .all, .reveal, some { contentType := some (txt "regexp"), regex := some (txt "ok") }⟩ pattern := by
  rintro ⟨pattern, p, h1, h2, -⟩
  cases h1
  exact absurd h2 (by decide)

/-- **C50** A body handler with a path but without the type `json` selects the whole body. -/
theorem C50_path_without_type (re : RegexEngine) (h : Handler) (m : HttpMessage) (raw : Bytes) (hpart : h.part = .body)
    (b : Body) (hb : m.body = some b) (hno : ¬ h.wantsJson) :
    ∃ rs, extractRanges re h m raw = .ok rs ∧ ∀ i, RangesMem i rs ↔ i ∈ b.span := by
  refine ⟨b.span.ranges, ?_, fun i => Iff.rfl⟩
  unfold extractRanges
  rw [hpart]
  simp only
  unfold extractBody
  rw [hb]
  cases hp : h.params with
  | none => rfl
  | some p =>
    simp only
    rw [if_neg]
    intro hc
    exact hno ⟨p, hp, hc⟩

/-- A handler with a path and no type is such a handler. -/
example : ¬ Handler.wantsJson ⟨.received, .body, .reveal, some { path := some (txt "name") }⟩ := by
  rintro ⟨p, h1, h2⟩
  cases h1; cases h2

end Tlsn.Sdk
