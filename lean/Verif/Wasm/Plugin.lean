import Verif.Wasm.Verifier
import Verif.Sdk.Plan
import Verif.Sdk.Example

/-!
# Model of crates/wasm/src/handler.rs: what a plugin's program passes and gets

The values of JavaScript that `serde_wasm_bindgen` makes and reads, for the types of `compute_reveal` and of
`Prover.reveal`.
-/

namespace Tlsn.Wasm

open Tlsn.Sdk (Text Ext SdkVerifierConfig SdkProverConfig VState VCall VReply SessionOutput SdkVerifierOutput WireMsg verifySteps sessionInfo Shows)

/-- A JavaScript value.  Simplification: numbers are natural numbers; `map` is an instance of `Map`, whose entries are not
properties.  The fields of an object have different names. -/
inductive JsVal where
  | undefined
  | null
  | bool (b : Bool)
  | num (n : Nat)
  | str (t : Text)
  | arr (l : List JsVal)
  | obj (fields : List (String × JsVal))
  | map (entries : List (String × JsVal))

/-- `v[key]` of JavaScript, for a value that is not `undefined` or `null` -/
def JsVal.get (v : JsVal) (key : String) : JsVal :=
  match v with
  | .obj fields => ((fields.find? (·.1 == key)).map (·.2)).getD .undefined
  | _ => .undefined

mutual

/-- `JSON.parse(JSON.stringify(v))`: how an extension forwards a value over a WebSocket (the comment in
crates/wasm/src/handler.rs:34-37).  Fields that are undefined are dropped, and a `Map` becomes an empty object. -/
def JsVal.forwarded : JsVal → JsVal
  | .arr l => .arr (forwardedAll l)
  | .obj fields => .obj (forwardedFields fields)
  | .map _ => .obj []
  | v => v

/-- The elements of an array: `undefined` becomes `null`. -/
def forwardedAll : List JsVal → List JsVal
  | [] => []
  | v :: l => (match v.forwarded with
      | .undefined => JsVal.null
      | w => w) :: forwardedAll l

/-- The fields of an object. -/
def forwardedFields : List (String × JsVal) → List (String × JsVal)
  | [] => []
  | (k, v) :: l => match v.forwarded with
      | .undefined => forwardedFields l
      | w => (k, w) :: forwardedFields l

end

/-! ## Writing: the `Serialize` implementations with `Serializer::json_compatible` -/

/-- A field with `skip_serializing_if = "Option::is_none"` -/
def optField {α : Type} (key : String) (f : α → JsVal) : Option α → List (String × JsVal)
  | none => []
  | some x => [(key, f x)]

/-- crates/sdk-core/src/types.rs:318-325 `HandlerType`, in upper case -/
def directionToJs : Direction → JsVal
  | .sent => .str "SENT".toList
  | .received => .str "RECV".toList

/-- crates/sdk-core/src/types.rs:328-347 `HandlerPart`, in upper case with underscores -/
def partToJs : Sdk.Part → JsVal
  | .startLine => .str "START_LINE".toList
  | .protocol => .str "PROTOCOL".toList
  | .method => .str "METHOD".toList
  | .requestTarget => .str "REQUEST_TARGET".toList
  | .statusCode => .str "STATUS_CODE".toList
  | .headers => .str "HEADERS".toList
  | .body => .str "BODY".toList
  | .all => .str "ALL".toList

/-- crates/sdk-core/src/types.rs:350-359 `HashAlgorithm`, in upper case -/
def hashToJs : Sdk.HashAlgorithm → JsVal
  | .blake3 => .str "BLAKE3".toList
  | .sha256 => .str "SHA256".toList
  | .keccak256 => .str "KECCAK256".toList

/-- crates/sdk-core/src/types.rs:401-411 `HandlerAction`, with the tag `kind` -/
def actionToJs : Sdk.Action → JsVal
  | .reveal => .obj [("kind", .str "REVEAL".toList)]
  | .hash a => .obj [("kind", .str "HASH".toList), ("algorithm", hashToJs a)]

/-- crates/sdk-core/src/types.rs:414-438 `HandlerParams` -/
def paramsToJs (p : Sdk.Params) : JsVal :=
  .obj (optField "key" .str p.key ++ optField "hideKey" .bool p.hideKey ++ optField "hideValue" .bool p.hideValue ++
    optField "type" .str p.contentType ++ optField "path" .str p.path ++ optField "regex" .str p.regex ++
    optField "flags" .str p.flags)

/-- crates/sdk-core/src/types.rs:445-460 `Handler` -/
def handlerToJs (h : Sdk.Handler) : JsVal :=
  .obj ([("type", directionToJs h.direction), ("part", partToJs h.part), ("action", actionToJs h.action)] ++
    optField "params" paramsToJs h.params)

/-- serde's form of a `Range<usize>` -/
def rangeToJs (r : Rng) : JsVal := .obj [("start", .num r.1), ("end", .num r.2)]

/-- crates/sdk-core/src/types.rs:245-253 `CommitRange` -/
def commitRangeToJs (c : Sdk.CommitRange) : JsVal :=
  .obj [("start", .num c.start), ("end", .num c.stop), ("algorithm", hashToJs c.algorithm)]

/-- crates/sdk-core/src/types.rs:263-269 `Commit` -/
def commitToJs (c : Sdk.Commit) : JsVal :=
  .obj [("sent", .arr (c.sent.map commitRangeToJs)), ("recv", .arr (c.recv.map commitRangeToJs))]

/-- crates/sdk-core/src/types.rs:272-280 `Reveal` -/
def revealToJs (r : Sdk.Reveal) : JsVal :=
  .obj [("sent", .arr (r.sent.map rangeToJs)), ("recv", .arr (r.recv.map rangeToJs)),
    ("server_identity", .bool r.serverIdentity)]

/-- crates/sdk-core/src/handler/mod.rs:25-33 `RangeWithHandler` -/
def annotatedToJs (a : Sdk.Annotated) : JsVal :=
  .obj [("start", .num a.range.1), ("end", .num a.range.2), ("handler", handlerToJs a.handler)]

/-- crates/sdk-core/src/handler/mod.rs:36-48 `ComputeRevealOutput` -/
def planToJs (p : Sdk.RevealPlan) : JsVal :=
  .obj ([("reveal", revealToJs p.reveal)] ++ optField "commit" commitToJs p.commit ++
    [("sent_ranges_with_handlers", .arr (p.sentAnnotated.map annotatedToJs)),
      ("recv_ranges_with_handlers", .arr (p.recvAnnotated.map annotatedToJs))])

/-! ## Reading: the `Deserialize` implementations with `serde_wasm_bindgen::from_value`

Simplification: of the ways to write an enumeration only the one of the documentation is read (a string for a variant
without fields, an object for an action). -/

/-- A `String` -/
def readText : JsVal → Option Text
  | .str t => some t
  | _ => none

/-- A `bool` -/
def readBool : JsVal → Option Bool
  | .bool b => some b
  | _ => none

/-- A `usize`, which has 32 bits -/
def readUsize : JsVal → Option Nat
  | .num n => if n < 2 ^ 32 then some n else none
  | _ => none

/-- An `Option`: `undefined`, also for a field that is missing, and `null` are `None`. -/
def readOption {α : Type} (f : JsVal → Option α) : JsVal → Option (Option α)
  | .undefined => some none
  | .null => some none
  | v => (f v).map some

/-- The elements of a `Vec`, in order. -/
def readAll {α : Type} (f : JsVal → Option α) : List JsVal → Option (List α)
  | [] => some []
  | v :: l => (f v).bind fun x => (readAll f l).map (x :: ·)

/-- A `Vec` -/
def readVec {α : Type} (f : JsVal → Option α) : JsVal → Option (List α)
  | .arr l => readAll f l
  | _ => none

/-- A value whose fields can be read -/
def JsVal.isObj : JsVal → Bool
  | .obj _ => true
  | _ => false

/-- A variant of an enumeration by its name. -/
def readNamed {α : Type} (names : List (String × α)) : JsVal → Option α
  | .str t => (names.find? (·.1.toList == t)).map (·.2)
  | _ => none

/-- crates/sdk-core/src/types.rs:318-325 `HandlerType` -/
def readDirection : JsVal → Option Direction := readNamed [("SENT", .sent), ("RECV", .received)]

/-- crates/sdk-core/src/types.rs:328-347 `HandlerPart` -/
def readPart : JsVal → Option Sdk.Part :=
  readNamed [("START_LINE", .startLine), ("PROTOCOL", .protocol), ("METHOD", .method), ("REQUEST_TARGET", .requestTarget),
    ("STATUS_CODE", .statusCode), ("HEADERS", .headers), ("BODY", .body), ("ALL", .all)]

/-- crates/sdk-core/src/types.rs:350-359 `HashAlgorithm` -/
def readHash : JsVal → Option Sdk.HashAlgorithm :=
  readNamed [("BLAKE3", .blake3), ("SHA256", .sha256), ("KECCAK256", .keccak256)]

/-- crates/sdk-core/src/types.rs:401-411 `HandlerAction` -/
def readAction (v : JsVal) : Option Sdk.Action :=
  match v.get "kind" with
  | .str t =>
    if t = "REVEAL".toList then some .reveal
    else if t = "HASH".toList then (readHash (v.get "algorithm")).map .hash
    else none
  | _ => none

/-- crates/sdk-core/src/types.rs:414-438 `HandlerParams` -/
def readParams (v : JsVal) : Option Sdk.Params :=
  if v.isObj then do
    let key ← readOption readText (v.get "key")
    let hideKey ← readOption readBool (v.get "hideKey")
    let hideValue ← readOption readBool (v.get "hideValue")
    let contentType ← readOption readText (v.get "type")
    let path ← readOption readText (v.get "path")
    let regex ← readOption readText (v.get "regex")
    let flags ← readOption readText (v.get "flags")
    pure ⟨key, hideKey, hideValue, contentType, path, regex, flags⟩
  else none

/-- crates/sdk-core/src/types.rs:445-460 `Handler` -/
def readHandler (v : JsVal) : Option Sdk.Handler :=
  if v.isObj then do
    let direction ← readDirection (v.get "type")
    let part ← readPart (v.get "part")
    let action ← readAction (v.get "action")
    let params ← readOption readParams (v.get "params")
    pure ⟨direction, part, action, params⟩
  else none

/-- serde's `Range<usize>` -/
def readRange (v : JsVal) : Option Rng :=
  if v.isObj then do
    let start ← readUsize (v.get "start")
    let stop ← readUsize (v.get "end")
    pure (start, stop)
  else none

/-- crates/sdk-core/src/handler/mod.rs:25-33 `RangeWithHandler`, as a verifier's server reads it -/
def readAnnotated (v : JsVal) : Option Sdk.Annotated :=
  if v.isObj then do
    let start ← readUsize (v.get "start")
    let stop ← readUsize (v.get "end")
    let handler ← readHandler (v.get "handler")
    pure ⟨(start, stop), handler⟩
  else none

/-- crates/wasm/src/types.rs:116-125 `HashAlgorithm` -/
def readJsHash : JsVal → Option JsHash := readNamed [("BLAKE3", .blake3), ("SHA256", .sha256), ("KECCAK256", .keccak256)]

/-- crates/wasm/src/types.rs:132-141 `CommitRange` -/
def readCommitRange (v : JsVal) : Option JsCommitRange :=
  if v.isObj then do
    let start ← readUsize (v.get "start")
    let stop ← readUsize (v.get "end")
    let algorithm ← readJsHash (v.get "algorithm")
    pure ⟨start, stop, algorithm⟩
  else none

/-- crates/wasm/src/types.rs:144-151 `Commit` -/
def readCommit (v : JsVal) : Option JsCommit :=
  if v.isObj then do
    let sent ← readVec readCommitRange (v.get "sent")
    let recv ← readVec readCommitRange (v.get "recv")
    pure ⟨sent, recv⟩
  else none

/-- crates/wasm/src/types.rs:154-163 `Reveal` -/
def readReveal (v : JsVal) : Option JsReveal :=
  if v.isObj then do
    let sent ← readVec readRange (v.get "sent")
    let recv ← readVec readRange (v.get "recv")
    let serverIdentity ← readBool (v.get "server_identity")
    pure ⟨sent, recv, serverIdentity⟩
  else none

/-- crates/wasm/src/handler.rs:27-43 `compute_reveal`; `none` is the exception that is thrown. -/
def jsComputeReveal (parser : Sdk.HttpParser) (re : Sdk.RegexEngine) (sent recv : Bytes) (handlers : JsVal) : Option JsVal :=
  match readVec readHandler handlers with
  | none => none
  | some hs => match Sdk.computeReveal parser re sent recv hs with
    | .error _ => none
    | .ok plan => some (planToJs plan)

/-! ## Reading what was written -/

theorem readAll_map {α : Type} {f : JsVal → Option α} {g : α → JsVal} {l : List α} (h : ∀ x ∈ l, f (g x) = some x) :
    readAll f (l.map g) = some l := by
  induction l with
  | nil => rfl
  | cons x l ih =>
    rw [List.map_cons, readAll, h x List.mem_cons_self, ih fun y hy => h y (List.mem_cons_of_mem _ hy)]
    rfl

theorem readAll_map' {α β : Type} {f : JsVal → Option β} {g : α → JsVal} {c : β → α} {l : List α}
    (h : ∀ x ∈ l, ∃ y, f (g x) = some y ∧ c y = x) : ∃ m, readAll f (l.map g) = some m ∧ m.map c = l := by
  induction l with
  | nil => exact ⟨[], rfl, rfl⟩
  | cons x l ih =>
    obtain ⟨y, h1, h2⟩ := h x List.mem_cons_self
    obtain ⟨m, h3, h4⟩ := ih fun y hy => h y (List.mem_cons_of_mem _ hy)
    exact ⟨y :: m, by rw [List.map_cons, readAll, h1, h3]; rfl, by rw [List.map_cons, h2, h4]⟩

theorem readDirection_toJs (d : Direction) : readDirection (directionToJs d) = some d := by cases d <;> rfl

theorem readPart_toJs (p : Sdk.Part) : readPart (partToJs p) = some p := by cases p <;> rfl

theorem readHash_toJs (a : Sdk.HashAlgorithm) : readHash (hashToJs a) = some a := by cases a <;> rfl

theorem readJsHash_toJs (a : Sdk.HashAlgorithm) : ∃ b, readJsHash (hashToJs a) = some b ∧ convertHash b = a := by
  cases a
  · exact ⟨.blake3, rfl, rfl⟩
  · exact ⟨.sha256, rfl, rfl⟩
  · exact ⟨.keccak256, rfl, rfl⟩

theorem readAction_toJs (a : Sdk.Action) : readAction (actionToJs a) = some a := by
  cases a with
  | reveal => rfl
  | hash a => cases a <;> rfl

theorem get_own {α : Type} (k : String) (f : α → JsVal) (o : Option α) (rest : List (String × JsVal))
    (h : (JsVal.obj rest).get k = .undefined) :
    (JsVal.obj (optField k f o ++ rest)).get k = (o.map f).getD .undefined := by
  cases o with
  | none => exact h
  | some x => simp [JsVal.get, optField]

theorem get_skip {α : Type} {k k' : String} (h : k ≠ k') (f : α → JsVal) (o : Option α) (rest : List (String × JsVal)) :
    (JsVal.obj (optField k f o ++ rest)).get k' = (JsVal.obj rest).get k' := by
  cases o with
  | none => rfl
  | some x => simp [JsVal.get, optField, h]

theorem get_nil (k : String) : (JsVal.obj []).get k = .undefined := rfl

theorem readOption_text (o : Option Text) : readOption readText ((o.map .str).getD .undefined) = some o := by
  cases o <;> rfl

theorem readOption_bool (o : Option Bool) : readOption readBool ((o.map .bool).getD .undefined) = some o := by
  cases o <;> rfl

theorem readParams_toJs (p : Sdk.Params) : readParams (paramsToJs p) = some p := by
  have e : paramsToJs p = .obj (optField "key" .str p.key ++ (optField "hideKey" .bool p.hideKey ++
      (optField "hideValue" .bool p.hideValue ++ (optField "type" .str p.contentType ++ (optField "path" .str p.path ++
      (optField "regex" .str p.regex ++ (optField "flags" .str p.flags ++ []))))))) := by
    simp only [paramsToJs, List.append_assoc, List.append_nil]
  have s1 : ∀ {α : Type} (k k' : String) (_ : k ≠ k') (f : α → JsVal) (o : Option α) (rest : List (String × JsVal)),
    (JsVal.obj (optField k f o ++ rest)).get k' = (JsVal.obj rest).get k' := fun _ _ h => get_skip h
  have h1 : (paramsToJs p).get "key" = (p.key.map .str).getD .undefined := by
    rw [e, get_own]
    simp only [s1 "hideKey" "key" (by decide), s1 "hideValue" "key" (by decide), s1 "type" "key" (by decide),
      s1 "path" "key" (by decide), s1 "regex" "key" (by decide), s1 "flags" "key" (by decide), get_nil]
  have h2 : (paramsToJs p).get "hideKey" = (p.hideKey.map .bool).getD .undefined := by
    rw [e, s1 "key" "hideKey" (by decide), get_own]
    simp only [s1 "hideValue" "hideKey" (by decide), s1 "type" "hideKey" (by decide),
      s1 "path" "hideKey" (by decide), s1 "regex" "hideKey" (by decide), s1 "flags" "hideKey" (by decide), get_nil]
  have h3 : (paramsToJs p).get "hideValue" = (p.hideValue.map .bool).getD .undefined := by
    rw [e, s1 "key" "hideValue" (by decide), s1 "hideKey" "hideValue" (by decide), get_own]
    simp only [s1 "type" "hideValue" (by decide),
      s1 "path" "hideValue" (by decide), s1 "regex" "hideValue" (by decide), s1 "flags" "hideValue" (by decide), get_nil]
  have h4 : (paramsToJs p).get "type" = (p.contentType.map .str).getD .undefined := by
    rw [e, s1 "key" "type" (by decide), s1 "hideKey" "type" (by decide), s1 "hideValue" "type" (by decide), get_own]
    simp only [s1 "path" "type" (by decide), s1 "regex" "type" (by decide), s1 "flags" "type" (by decide), get_nil]
  have h5 : (paramsToJs p).get "path" = (p.path.map .str).getD .undefined := by
    rw [e, s1 "key" "path" (by decide), s1 "hideKey" "path" (by decide), s1 "hideValue" "path" (by decide),
      s1 "type" "path" (by decide), get_own]
    simp only [s1 "regex" "path" (by decide), s1 "flags" "path" (by decide), get_nil]
  have h6 : (paramsToJs p).get "regex" = (p.regex.map .str).getD .undefined := by
    rw [e, s1 "key" "regex" (by decide), s1 "hideKey" "regex" (by decide), s1 "hideValue" "regex" (by decide),
      s1 "type" "regex" (by decide), s1 "path" "regex" (by decide), get_own]
    simp only [s1 "flags" "regex" (by decide), get_nil]
  have h7 : (paramsToJs p).get "flags" = (p.flags.map .str).getD .undefined := by
    rw [e, s1 "key" "flags" (by decide), s1 "hideKey" "flags" (by decide), s1 "hideValue" "flags" (by decide),
      s1 "type" "flags" (by decide), s1 "path" "flags" (by decide), s1 "regex" "flags" (by decide), get_own]
    rfl
  rw [readParams, if_pos (show (paramsToJs p).isObj = true from rfl)]
  simp only [h1, h2, h3, h4, h5, h6, h7, readOption_text, readOption_bool, Option.bind_eq_bind, Option.bind_some]
  rfl

theorem readHandler_toJs (h : Sdk.Handler) : readHandler (handlerToJs h) = some h := by
  obtain ⟨d, p, a, q⟩ := h
  have hq : readOption readParams ((handlerToJs ⟨d, p, a, q⟩).get "params") = some q := by
    cases q with
    | none => rfl
    | some q =>
      show (readParams (paramsToJs q)).map some = _
      rw [readParams_toJs]; rfl
  rw [readHandler, if_pos (show (handlerToJs ⟨d, p, a, q⟩).isObj = true from rfl)]
  show ((readDirection (directionToJs d)).bind fun _ => (readPart (partToJs p)).bind fun _ =>
    (readAction (actionToJs a)).bind fun _ => (readOption readParams ((handlerToJs ⟨d, p, a, q⟩).get "params")).bind _) = _
  rw [readDirection_toJs, readPart_toJs, readAction_toJs, hq]
  rfl

/-! ## Forwarding what was written -/

theorem forwardedAll_map {α : Type} {g : α → JsVal} (h : ∀ x, (g x).forwarded = g x ∧ g x ≠ .undefined) (l : List α) :
    forwardedAll (l.map g) = l.map g := by
  induction l with
  | nil => rfl
  | cons x l ih =>
    rw [List.map_cons, forwardedAll, (h x).1, ih]
    congr 1
    cases hx : g x with
    | undefined => exact absurd hx (h x).2
    | _ => rfl

theorem forwardedFields_append (a b : List (String × JsVal)) :
    forwardedFields (a ++ b) = forwardedFields a ++ forwardedFields b := by
  induction a with
  | nil => rfl
  | cons x a ih =>
    obtain ⟨k, v⟩ := x
    rw [List.cons_append, forwardedFields, forwardedFields, ih]
    cases v.forwarded <;> rfl

theorem forwarded_field {k : String} {v : JsVal} (h : v.forwarded = v) (hu : v ≠ .undefined) :
    forwardedFields [(k, v)] = [(k, v)] := by
  rw [forwardedFields, h]
  cases hv : v with
  | undefined => exact absurd hv hu
  | _ => rfl

theorem forwarded_optField {α : Type} {g : α → JsVal} (h : ∀ x, (g x).forwarded = g x ∧ g x ≠ .undefined) (k : String)
    (o : Option α) : forwardedFields (optField k g o) = optField k g o := by
  cases o with
  | none => rfl
  | some x => exact forwarded_field (h x).1 (h x).2

theorem forwarded_params (p : Sdk.Params) : (paramsToJs p).forwarded = paramsToJs p ∧ paramsToJs p ≠ .undefined := by
  refine ⟨?_, by simp [paramsToJs]⟩
  have h1 : ∀ t : Text, (JsVal.str t).forwarded = .str t ∧ JsVal.str t ≠ .undefined := fun t => ⟨rfl, by simp⟩
  have h2 : ∀ t : Bool, (JsVal.bool t).forwarded = .bool t ∧ JsVal.bool t ≠ .undefined := fun t => ⟨rfl, by simp⟩
  rw [paramsToJs, JsVal.forwarded]
  simp only [forwardedFields_append, forwarded_optField h1, forwarded_optField h2]

theorem forwarded_hash (a : Sdk.HashAlgorithm) : (hashToJs a).forwarded = hashToJs a := by cases a <;> rfl

theorem forwarded_handler (h : Sdk.Handler) : (handlerToJs h).forwarded = handlerToJs h ∧ handlerToJs h ≠ .undefined := by
  refine ⟨?_, by simp [handlerToJs]⟩
  rw [handlerToJs, JsVal.forwarded, forwardedFields_append, forwarded_optField forwarded_params]
  congr 2
  cases h.direction <;> cases h.part <;> cases h.action <;> first | rfl | (rename_i a; cases a <;> rfl)

theorem forwarded_annotated (a : Sdk.Annotated) :
    (annotatedToJs a).forwarded = annotatedToJs a ∧ annotatedToJs a ≠ .undefined := by
  refine ⟨?_, by simp [annotatedToJs]⟩
  have e : annotatedToJs a = .obj (([("start", JsVal.num a.range.1)] ++ [("end", JsVal.num a.range.2)]) ++
    [("handler", handlerToJs a.handler)]) := rfl
  rw [e, JsVal.forwarded, forwardedFields_append, forwardedFields_append,
    forwarded_field (forwarded_handler a.handler).1 (forwarded_handler a.handler).2]
  rfl

theorem forwarded_range (r : Rng) : (rangeToJs r).forwarded = rangeToJs r ∧ rangeToJs r ≠ .undefined :=
  ⟨rfl, by simp [rangeToJs]⟩

theorem forwarded_commitRange (c : Sdk.CommitRange) :
    (commitRangeToJs c).forwarded = commitRangeToJs c ∧ commitRangeToJs c ≠ .undefined := by
  refine ⟨?_, by simp [commitRangeToJs]⟩
  obtain ⟨a, b, c⟩ := c
  cases c <;> rfl

theorem forwarded_arr {α : Type} {g : α → JsVal} (h : ∀ x, (g x).forwarded = g x ∧ g x ≠ .undefined) (l : List α) :
    (JsVal.arr (l.map g)).forwarded = .arr (l.map g) := by
  rw [JsVal.forwarded, forwardedAll_map h]

theorem forwarded_commit (c : Sdk.Commit) : (commitToJs c).forwarded = commitToJs c ∧ commitToJs c ≠ .undefined := by
  refine ⟨?_, by simp [commitToJs]⟩
  have e : commitToJs c = .obj ([("sent", .arr (c.sent.map commitRangeToJs))] ++ [("recv", .arr (c.recv.map commitRangeToJs))]) := rfl
  rw [e, JsVal.forwarded, forwardedFields_append, forwarded_field (forwarded_arr forwarded_commitRange _) (by simp),
    forwarded_field (forwarded_arr forwarded_commitRange _) (by simp)]

theorem forwarded_reveal (r : Sdk.Reveal) : (revealToJs r).forwarded = revealToJs r := by
  have e : revealToJs r = .obj (([("sent", .arr (r.sent.map rangeToJs))] ++ [("recv", .arr (r.recv.map rangeToJs))]) ++
    [("server_identity", .bool r.serverIdentity)]) := rfl
  rw [e, JsVal.forwarded, forwardedFields_append, forwardedFields_append, forwarded_field (forwarded_arr forwarded_range _) (by simp),
    forwarded_field (forwarded_arr forwarded_range _) (by simp)]
  rfl

theorem forwarded_plan (p : Sdk.RevealPlan) : (planToJs p).forwarded = planToJs p := by
  have e : planToJs p = .obj (([("reveal", revealToJs p.reveal)] ++ optField "commit" commitToJs p.commit) ++
    ([("sent_ranges_with_handlers", .arr (p.sentAnnotated.map annotatedToJs))] ++
      [("recv_ranges_with_handlers", .arr (p.recvAnnotated.map annotatedToJs))])) := rfl
  rw [e, JsVal.forwarded]
  simp only [forwardedFields_append]
  rw [forwarded_field (forwarded_reveal _) (by simp [revealToJs]), forwarded_optField forwarded_commit,
    forwarded_field (forwarded_arr forwarded_annotated _) (by simp), forwarded_field (forwarded_arr forwarded_annotated _) (by simp)]

/-! ## The fields of the output -/

theorem plan_reveal (p : Sdk.RevealPlan) : (planToJs p).get "reveal" = revealToJs p.reveal := by
  obtain ⟨r, c, s, t⟩ := p
  cases c <;> rfl

theorem plan_commit (p : Sdk.RevealPlan) : (planToJs p).get "commit" = (p.commit.map commitToJs).getD .undefined := by
  obtain ⟨r, c, s, t⟩ := p
  cases c <;> rfl

theorem plan_annotated (p : Sdk.RevealPlan) :
    (planToJs p).get "sent_ranges_with_handlers" = .arr (p.sentAnnotated.map annotatedToJs) ∧
      (planToJs p).get "recv_ranges_with_handlers" = .arr (p.recvAnnotated.map annotatedToJs) := by
  obtain ⟨r, c, s, t⟩ := p
  cases c <;> exact ⟨rfl, rfl⟩

/-- The positions in a plan are those of a program with 32 bit integers. -/
structure Fits (p : Sdk.RevealPlan) : Prop where
  reveal : ∀ r ∈ p.reveal.sent ++ p.reveal.recv, r.1 < 2 ^ 32 ∧ r.2 < 2 ^ 32
  commit : ∀ c, p.commit = some c → ∀ r ∈ c.sent ++ c.recv, r.start < 2 ^ 32 ∧ r.stop < 2 ^ 32
  annotated : ∀ a ∈ p.sentAnnotated ++ p.recvAnnotated, a.range.1 < 2 ^ 32 ∧ a.range.2 < 2 ^ 32

theorem readUsize_num {n : Nat} (h : n < 2 ^ 32) : readUsize (.num n) = some n := if_pos h

theorem readRange_toJs {r : Rng} (h : r.1 < 2 ^ 32 ∧ r.2 < 2 ^ 32) : readRange (rangeToJs r) = some r := by
  show ((readUsize (.num r.1)).bind fun _ => (readUsize (.num r.2)).bind _) = _
  rw [readUsize_num h.1, readUsize_num h.2]
  rfl

theorem readAnnotated_toJs {a : Sdk.Annotated} (h : a.range.1 < 2 ^ 32 ∧ a.range.2 < 2 ^ 32) :
    readAnnotated (annotatedToJs a) = some a := by
  show ((readUsize (.num a.range.1)).bind fun _ => (readUsize (.num a.range.2)).bind fun _ =>
    (readHandler (handlerToJs a.handler)).bind _) = _
  rw [readUsize_num h.1, readUsize_num h.2, readHandler_toJs]
  rfl

theorem readCommitRange_toJs {c : Sdk.CommitRange} (h : c.start < 2 ^ 32 ∧ c.stop < 2 ^ 32) :
    ∃ x, readCommitRange (commitRangeToJs c) = some x ∧ convertCommitRange x = c := by
  obtain ⟨b, hb, hc⟩ := readJsHash_toJs c.algorithm
  refine ⟨⟨c.start, c.stop, b⟩, ?_, by rw [convertCommitRange, hc]⟩
  show ((readUsize (.num c.start)).bind fun _ => (readUsize (.num c.stop)).bind fun _ => (readJsHash (hashToJs c.algorithm)).bind _) = _
  rw [readUsize_num h.1, readUsize_num h.2, hb]
  rfl

theorem readCommit_toJs {c : Sdk.Commit} (h : ∀ r ∈ c.sent ++ c.recv, r.start < 2 ^ 32 ∧ r.stop < 2 ^ 32) :
    ∃ x, readCommit (commitToJs c) = some x ∧ convertCommit x = c := by
  obtain ⟨m, h1, h2⟩ := readAll_map' (f := readCommitRange) (g := commitRangeToJs) (c := convertCommitRange) (l := c.sent)
    fun x hx => readCommitRange_toJs (h x (List.mem_append_left _ hx))
  obtain ⟨n, h3, h4⟩ := readAll_map' (f := readCommitRange) (g := commitRangeToJs) (c := convertCommitRange) (l := c.recv)
    fun x hx => readCommitRange_toJs (h x (List.mem_append_right _ hx))
  refine ⟨⟨m, n⟩, ?_, by rw [convertCommit, h2, h4]⟩
  show ((readAll readCommitRange (c.sent.map commitRangeToJs)).bind fun _ => (readAll readCommitRange (c.recv.map commitRangeToJs)).bind _) = _
  rw [h1, h3]
  rfl

theorem readReveal_toJs {r : Sdk.Reveal} (h : ∀ x ∈ r.sent ++ r.recv, x.1 < 2 ^ 32 ∧ x.2 < 2 ^ 32) :
    readReveal (revealToJs r) = some ⟨r.sent, r.recv, r.serverIdentity⟩ := by
  show ((readAll readRange (r.sent.map rangeToJs)).bind fun _ => (readAll readRange (r.recv.map rangeToJs)).bind _) = _
  rw [readAll_map fun x hx => readRange_toJs (h x (List.mem_append_left _ hx)),
    readAll_map fun x hx => readRange_toJs (h x (List.mem_append_right _ hx))]
  rfl

/-! ## The extracted ranges lie in the message -/

theorem extracted_nonempty {re : Sdk.RegexEngine} {h : Sdk.Handler} {m : Sdk.HttpMessage} {raw : Bytes} {rs : List Rng}
    (hpart : h.part ≠ .all) (hrs : Sdk.extractRanges re h m raw = .ok rs) : ∀ r ∈ rs, r.1 < r.2 := by
  have key : ∀ s : RangeSet, Except.ok s.ranges = (.ok rs : Sdk.Extracted) → ∀ r ∈ rs, r.1 < r.2 := by
    intro s hs; cases hs; exact s.canon.nonempty
  have jv : ∀ root path hk hv, Sdk.extractJsonValue root path hk hv = .ok rs → ∀ r ∈ rs, r.1 < r.2 := by
    intro root path hk hv hj
    unfold Sdk.extractJsonValue at hj
    split at hj
    · cases hj
    · split at hj
      · split at hj <;> exact key _ hj
      · exact key _ hj
  have jp : ∀ root path hk hv, Sdk.extractJsonPath root path hk hv = .ok rs → ∀ r ∈ rs, r.1 < r.2 := by
    intro root path hk hv hj
    unfold Sdk.extractJsonPath at hj
    split at hj
    · split at hj
      · unfold Sdk.kvRanges at hj
        split at hj
        · exact key _ hj
        · split at hj <;> exact key _ hj
      · exact jv _ _ _ _ hj
    · exact jv _ _ _ _ hj
  unfold Sdk.extractRanges at hrs
  cases hp : h.part with
  | startLine => rw [hp] at hrs; exact key _ hrs
  | protocol =>
    rw [hp] at hrs
    simp only [Sdk.extractProtocol] at hrs
    split at hrs <;> exact key _ hrs
  | method =>
    rw [hp] at hrs
    simp only [Sdk.extractMethod] at hrs
    split at hrs
    · exact key _ hrs
    · cases hrs
  | requestTarget =>
    rw [hp] at hrs
    simp only [Sdk.extractRequestTarget] at hrs
    split at hrs
    · exact key _ hrs
    · cases hrs
  | statusCode =>
    rw [hp] at hrs
    simp only [Sdk.extractStatusCode] at hrs
    split at hrs
    · cases hrs
    · exact key _ hrs
  | headers =>
    rw [hp] at hrs
    simp only [Sdk.extractHeaders] at hrs
    split at hrs
    · cases hrs
    · simp only [Except.ok.injEq] at hrs
      subst hrs
      intro r hr
      obtain ⟨x, -, hx⟩ := List.mem_flatMap.1 hr
      unfold Sdk.headerRanges at hx
      split at hx
      · exact x.value.canon.nonempty r hx
      · split at hx
        · exact x.withoutValue.canon.nonempty r hx
        · exact x.span.canon.nonempty r hx
  | body =>
    rw [hp] at hrs
    simp only [Sdk.extractBody] at hrs
    split at hrs
    · cases hrs; simp
    · split at hrs
      · exact key _ hrs
      · split at hrs
        · unfold Sdk.extractJsonBody at hrs
          split at hrs
          · cases hrs
          · split at hrs
            · cases hrs
            · simp only at hrs
              split at hrs
              · cases hrs
              · exact jp _ _ _ _ hrs
        · exact key _ hrs
  | all => exact absurd hp hpart

/-- What is assumed of `regex`: matches lie in the text. -/
def MatchesInside (re : Sdk.RegexEngine) : Prop := ∀ pat f, re pat = some f → ∀ x r, r ∈ f x → r.1 ≤ r.2 ∧ r.2 ≤ x.length

theorem extracted_inside {re : Sdk.RegexEngine} {h : Sdk.Handler} {m : Sdk.HttpMessage} {raw : Bytes} {rs : List Rng}
    (hp : h.Plain) (hm : Sdk.MessageBelow raw.length m) (hre : MatchesInside re)
    (hrs : Sdk.extractRanges re h m raw = .ok rs) : ∀ r ∈ rs, r.1 ≤ r.2 ∧ r.2 ≤ raw.length := by
  by_cases hpart : h.part = .all
  · intro r hr
    unfold Sdk.extractRanges at hrs
    rw [hpart] at hrs
    simp only [Sdk.extractAll] at hrs
    have whole : Except.ok [(0, raw.length)] = (.ok rs : Sdk.Extracted) → r.1 ≤ r.2 ∧ r.2 ≤ raw.length := by
      intro e
      cases e
      rw [List.mem_singleton.1 hr]
      exact ⟨Nat.zero_le _, Nat.le_refl _⟩
    split at hrs
    · exact whole hrs
    · split at hrs
      · split at hrs
        · exact whole hrs
        · split at hrs
          · cases hrs
          · rename_i f hf
            cases hrs
            exact hre _ _ hf _ _ hr
      · exact whole hrs
  · intro r hr
    have h1 := extracted_nonempty hpart hrs r hr
    have h2 := Sdk.C50_inside re h m raw hp hm hre rs hrs (r.2 - 1) ⟨r, hr, by omega, by omega⟩
    omega

theorem plan_inside {parser : Sdk.HttpParser} {re : Sdk.RegexEngine} {data : Transcript} {handlers : List Sdk.Handler}
    (hp : ∀ h ∈ handlers, h.Plain) {request response : Sdk.HttpMessage} (hq : parser.request data.sent = some request)
    (hr : parser.response data.received = some response) (hm : Sdk.MessageBelow data.sent.length request)
    (hm' : Sdk.MessageBelow data.received.length response) (hre : MatchesInside re) {plan : Sdk.RevealPlan}
    (h : Sdk.computeReveal parser re data.sent data.received handlers = .ok plan) (d : Direction) :
    (∀ r ∈ plan.revealOf d, r.1 ≤ r.2 ∧ r.2 ≤ (data.data d).length) ∧
      (∀ c ∈ plan.commitOf d, c.start ≤ c.stop ∧ c.stop ≤ (data.data d).length ∧ ∃ x ∈ handlers, x.action = .hash c.algorithm) ∧
      ∀ a ∈ plan.annotatedOf d, a.range.1 ≤ a.range.2 ∧ a.range.2 ≤ (data.data d).length := by
  obtain ⟨request', response', rss, h1, h2, h3, h4, -⟩ := Sdk.C50_plan parser re _ _ handlers plan h
  rw [hq] at h1; cases h1
  rw [hr] at h2; cases h2
  have key : ∀ x ∈ handlers.zip rss, x.1.direction = d → ∀ r ∈ x.2, r.1 ≤ r.2 ∧ r.2 ≤ (data.data d).length := by
    intro x hx hd r hxr
    obtain ⟨hm1, he⟩ := Sdk.mem_zip_of_forall h3 hx
    unfold Sdk.extractedFor at he
    rw [hd] at he
    cases d with
    | sent => exact extracted_inside (hp _ hm1) hm hre he r hxr
    | received => exact extracted_inside (hp _ hm1) hm' hre he r hxr
  rw [(h4 d).1, (h4 d).2.1, (h4 d).2.2]
  refine ⟨fun r hxr => ?_, fun c hc => ?_, fun a ha => ?_⟩
  · obtain ⟨x, hx, hi⟩ := List.mem_flatMap.1 hxr
    unfold Sdk.toReveal at hi
    split at hi
    · rename_i hc; exact key x hx hc.1 r hi
    · cases hi
  · obtain ⟨x, hx, hi⟩ := List.mem_flatMap.1 hc
    unfold Sdk.toCommit at hi
    split at hi
    · rename_i hd
      cases ha : x.1.action with
      | reveal => rw [ha] at hi; cases hi
      | hash alg =>
        rw [ha] at hi
        obtain ⟨r, hr1, rfl⟩ := List.mem_map.1 hi
        have := key x hx hd r hr1
        exact ⟨this.1, this.2, x.1, (Sdk.mem_zip_of_forall h3 hx).1, ha⟩
    · cases hi
  · obtain ⟨x, hx, hi⟩ := List.mem_flatMap.1 ha
    unfold Sdk.toAnnotated at hi
    split at hi
    · rename_i hd
      obtain ⟨r, hr1, rfl⟩ := List.mem_map.1 hi
      exact key x hx hd r hr1
    · cases hi

theorem plan_fits {parser : Sdk.HttpParser} {re : Sdk.RegexEngine} {data : Transcript} {handlers : List Sdk.Handler}
    (hp : ∀ h ∈ handlers, h.Plain) {request response : Sdk.HttpMessage} (hq : parser.request data.sent = some request)
    (hr : parser.response data.received = some response) (hm : Sdk.MessageBelow data.sent.length request)
    (hm' : Sdk.MessageBelow data.received.length response) (hre : MatchesInside re) {plan : Sdk.RevealPlan}
    (h : Sdk.computeReveal parser re data.sent data.received handlers = .ok plan)
    (hlen : data.sent.length < 2 ^ 32 ∧ data.received.length < 2 ^ 32) : Fits plan := by
  have k := plan_inside hp hq hr hm hm' hre h
  have hl : ∀ d, (data.data d).length < 2 ^ 32 := by intro d; cases d; exact hlen.1; exact hlen.2
  refine ⟨fun r hxr => ?_, fun c hc r hxr => ?_, fun a ha => ?_⟩
  · rcases List.mem_append.1 hxr with hx | hx
    · have := (k .sent).1 r hx; have := hl .sent; omega
    · have := (k .received).1 r hx; have := hl .received; omega
  · rcases List.mem_append.1 hxr with hx | hx
    · have := (k .sent).2.1 r (by simpa [Sdk.RevealPlan.commitOf, hc] using hx); have := hl .sent; omega
    · have := (k .received).2.1 r (by simpa [Sdk.RevealPlan.commitOf, hc] using hx); have := hl .received; omega
  · rcases List.mem_append.1 ha with hx | hx
    · have := (k .sent).2.2 a hx; have := hl .sent; omega
    · have := (k .received).2.2 a hx; have := hl .received; omega

/-! ## C122 -/

/-- **C122**: handlers written as JavaScript values, for example by a plugin or taken from an earlier output, are read back as the
same handlers, also after they were forwarded as JSON. -/
theorem C122_handlers (handlers : List Sdk.Handler) :
    readVec readHandler (.arr (handlers.map handlerToJs)) = some handlers ∧
      readVec readHandler (JsVal.arr (handlers.map handlerToJs)).forwarded = some handlers := by
  have h : readVec readHandler (.arr (handlers.map handlerToJs)) = some handlers :=
    readAll_map fun x _ => readHandler_toJs x
  exact ⟨h, by rw [forwarded_arr forwarded_handler]; exact h⟩

/-- **C122**: the object that `compute_reveal` returns is unchanged by forwarding it as JSON; its fields `reveal` and `commit` are
what `Prover.reveal` takes, with the ranges, algorithms and order of the plan; and the annotated ranges are read back as the
plan's. -/
theorem C122_output (parser : Sdk.HttpParser) (re : Sdk.RegexEngine) (sent recv : Bytes) (v out : JsVal)
    (handlers : List Sdk.Handler) (hv : readVec readHandler v = some handlers) (plan : Sdk.RevealPlan)
    (hplan : Sdk.computeReveal parser re sent recv handlers = .ok plan) (hf : Fits plan)
    (hout : jsComputeReveal parser re sent recv v = some out) :
    out.forwarded = out ∧
      (∃ r c, readReveal (out.get "reveal") = some r ∧ convertReveal r = plan.reveal ∧
        readOption readCommit (out.get "commit") = some c ∧ c.map convertCommit = plan.commit) ∧
      readVec readAnnotated (out.get "sent_ranges_with_handlers") = some plan.sentAnnotated ∧
      readVec readAnnotated (out.get "recv_ranges_with_handlers") = some plan.recvAnnotated := by
  unfold jsComputeReveal at hout
  rw [hv] at hout
  simp only [hplan, Option.some.injEq] at hout
  subst hout
  refine ⟨forwarded_plan plan, ?_, ?_, ?_⟩
  · have h1 := readReveal_toJs hf.reveal
    rw [plan_reveal, plan_commit]
    cases hc : plan.commit with
    | none => exact ⟨_, none, h1, by rw [convertReveal_eq], rfl, rfl⟩
    | some c =>
      obtain ⟨x, h2, h3⟩ := readCommit_toJs (hf.commit c hc)
      refine ⟨_, some x, h1, by rw [convertReveal_eq], ?_, by rw [Option.map_some, h3]⟩
      show (readCommit (commitToJs c)).map some = _
      rw [h2]
      rfl
  · rw [(plan_annotated plan).1]
    exact readAll_map fun x hx => readAnnotated_toJs (hf.annotated x (List.mem_append_left _ hx))
  · rw [(plan_annotated plan).2]
    exact readAll_map fun x hx => readAnnotated_toJs (hf.annotated x (List.mem_append_right _ hx))

/-- **C122**: the documentation of `compute_reveal` names the fields `sentRanges`, `recvRanges`, `sentRangesWithHandlers` and
`recvRangesWithHandlers` (crates/wasm/src/handler.rs:22-25).  No output has any of them. -/
theorem C122_documented_fields (parser : Sdk.HttpParser) (re : Sdk.RegexEngine) (sent recv : Bytes) (v out : JsVal)
    (hout : jsComputeReveal parser re sent recv v = some out) :
    out.get "sentRanges" = .undefined ∧ out.get "recvRanges" = .undefined ∧
      out.get "sentRangesWithHandlers" = .undefined ∧ out.get "recvRangesWithHandlers" = .undefined := by
  unfold jsComputeReveal at hout
  split at hout
  · cases hout
  · split at hout
    · cases hout
    · rename_i plan _
      cases hout
      obtain ⟨r, c, s, t⟩ := plan
      cases c <;> exact ⟨rfl, rfl, rfl, rfl⟩

/-- **C122** from a plugin to the verifier: the program passes the plugin's handlers to `compute_reveal`, with the data of the
session, and what it returns to `Prover.reveal`.  If every handler applies, the verifier's program gets the server's name, and
its output covers exactly the positions which the REVEAL handlers select, with the bytes of the session.  For each position that a
HASH handler selects, the prover gets an opening of a range that has it, for the handler's algorithm.  The data fits in 32 bit
integers, since it is in the memory of the program. -/
theorem C122_plugin (parser : Sdk.HttpParser) (re : Sdk.RegexEngine) (handlers : List Sdk.Handler) (v : JsVal)
    (hv : readVec readHandler v = some handlers) (hplain : ∀ h ∈ handlers, h.Plain) (hre : MatchesInside re)
    (env : Protocol.Env) (k : KeyBytes) (certs : CertVerifier) (hcerts : env.certs = some certs)
    (hw : WellFormed env.tls) (name : ServerName) (hsd : HandshakeData) (blinders : Nat → Blinder)
    (data : Transcript) (hdata : data = sessionData env.aes k env.tls)
    (hlen : data.sent.length ≤ vecLimit ∧ data.received.length ≤ vecLimit)
    (hmem : data.sent.length < 2 ^ 32 ∧ data.received.length < 2 ^ 32)
    (request response : Sdk.HttpMessage) (hq : parser.request data.sent = some request)
    (hr : parser.response data.received = some response) (hm : Sdk.MessageBelow data.sent.length request)
    (hm' : Sdk.MessageBelow data.received.length response)
    (happly : ∀ h ∈ handlers, Sdk.Applies re h (Sdk.messageOf request response h.direction))
    (hhash : ∀ h ∈ handlers, ∀ a, h.action = .hash a → (env.hc a.id).isSome)
    (vp : ZkVm) (hkp : HoldsKeys vp env.keys k) (c : SdkProverConfig) (p : JsProver) (hp : p.inner = .committed data)
    (order : List CommitEntry → List CommitEntry) (ho : ∀ l, (order l).Perm l)
    (hid : ∃ key, env.tls.binding = some key ∧ hsd.verify certs env.tls.time key name = .ok ())
    (provider : HashProvider)
    (hprov : ∀ a f, env.hc a = some f → ∃ h, provider a = some h ∧ h.id = a ∧ ∀ m, h.hash m = (f m).toList) :
    ∃ out r commit, jsComputeReveal parser re data.sent data.received v = some out ∧
      readReveal (out.get "reveal") = some r ∧ readOption readCommit (out.get "commit") = some commit ∧
      ∃ msg openings cfg vpEnd, revealMsg data name hsd order r commit = some msg ∧
        (p.call c (.reveal r commit order (proveSteps env data vp name hsd blinders (some .ok)))).2.2 = .sdk (.output openings) ∧
        (∀ h ∈ handlers, ∀ a, h.action = .hash a → ∀ i,
          Sdk.Selects re h (Sdk.messageOf request response h.direction) (data.data h.direction) i →
          ∃ x : Rng, x.1 ≤ i ∧ i < x.2 ∧ ∃ op ∈ (match h.direction with | .sent => openings.sent | .received => openings.recv),
            Sdk.Opens provider data h.direction (.ofRanges [x]) a.id op) ∧
        Sdk.revealConfig data order (convertReveal r) (commit.map convertCommit) = .ok cfg ∧
        (Protocol.proverRest env data vp cfg blinders (some .ok)).1 = some vpEnd ∧
        ∀ (vv : ZkVm) (l : SdkVerifierConfig) (version : TlsVersion), HoldsKeys vv env.keys k → InStep vv.fill vp vv →
          Agree vp vv → (∀ a < vpEnd.mem.length, some (vv.fill a) = vpEnd.mem[a]?) →
          ∃ o, (jsVerifierCall l .committed (.verify (sessionInfo env.tls version) (verifySteps env vv (some msg) true))).2 = .output o ∧
            o.serverName = some (name.map fun b => Char.ofNat b.toNat) ∧
            (∀ t, o.transcript = some t → Shows data.sent t.sent t.sentAuthed ∧ Shows data.received t.recv t.recvAuthed) ∧
            (∀ i, (∃ t, o.transcript = some t ∧ Covers t.sentAuthed i) ↔
              ∃ h ∈ handlers, h.direction = .sent ∧ h.action = .reveal ∧ Sdk.Selects re h request data.sent i) ∧
            ∀ i, (∃ t, o.transcript = some t ∧ Covers t.recvAuthed i) ↔
              ∃ h ∈ handlers, h.direction = .received ∧ h.action = .reveal ∧ Sdk.Selects re h response data.received i := by
  obtain ⟨plan, hplan⟩ := (Sdk.C50_plan_exists parser re data.sent data.received handlers hplain).2 ⟨request, response, hq, hr, happly⟩
  have hin := plan_inside hplain hq hr hm hm' hre hplan
  have hf := plan_fits hplain hq hr hm hm' hre hplan hmem
  have hout : jsComputeReveal parser re data.sent data.received v = some (planToJs plan) := by
    simp only [jsComputeReveal, hv, hplan]
  obtain ⟨-, ⟨r, commit, hr1, hr2, hc1, hc2⟩, -⟩ := C122_output parser re _ _ v _ handlers hv plan hplan hf hout
  refine ⟨_, r, commit, hout, hr1, hc1, ?_⟩
  have hrs : r.sent = plan.reveal.sent ∧ r.recv = plan.reveal.recv ∧ r.serverIdentity = plan.reveal.serverIdentity := by
    rw [← hr2, convertReveal_eq]; exact ⟨rfl, rfl, rfl⟩
  have hsi : r.serverIdentity = true := by
    obtain ⟨_, _, _, _, _, _, _, h, _⟩ := Sdk.C50_plan parser re _ _ handlers plan hplan
    rw [hrs.2.2, h]
  have hcs : ∀ kk, commit = some kk → plan.commitOf .sent = kk.sent.map convertCommitRange ∧
      plan.commitOf .received = kk.recv.map convertCommitRange := by
    intro kk hkk
    rw [hkk] at hc2
    simp only [Option.map_some] at hc2
    simp only [Sdk.RevealPlan.commitOf, ← hc2]
    exact ⟨rfl, rfl⟩
  have hask : Askable env data r commit := by
    refine ⟨fun i hi => ?_, fun i hi => ?_, fun kk hkk x hx => ?_, fun kk hkk x hx => ?_⟩
    · obtain ⟨x, hx, -, h2⟩ := hi
      rw [hrs.1] at hx
      exact Nat.lt_of_lt_of_le h2 ((hin .sent).1 x hx).2
    · obtain ⟨x, hx, -, h2⟩ := hi
      rw [hrs.2.1] at hx
      exact Nat.lt_of_lt_of_le h2 ((hin .received).1 x hx).2
    · obtain ⟨h1, h2, y, hy, hya⟩ := (hin .sent).2.1 (convertCommitRange x) (by rw [(hcs kk hkk).1]; exact List.mem_map_of_mem hx)
      refine ⟨?_, fun i _ hi => Nat.lt_of_lt_of_le hi h2⟩
      rw [← convertHash_eq]
      exact hhash y hy _ hya
    · obtain ⟨h1, h2, y, hy, hya⟩ := (hin .received).2.1 (convertCommitRange x) (by rw [(hcs kk hkk).2]; exact List.mem_map_of_mem hx)
      refine ⟨?_, fun i _ hi => Nat.lt_of_lt_of_le hi h2⟩
      rw [← convertHash_eq]
      exact hhash y hy _ hya
  obtain ⟨msg, openings, cfg, vpEnd, e1, e2, e3, e4, e5, e6⟩ := C121_honest env k certs hcerts hw name hsd blinders data hdata hlen vp hkp c p
    hp r commit order ho hask (fun _ => hid) provider hprov
  refine ⟨msg, openings, cfg, vpEnd, e1, e2, ?_, e4, e5, ?_⟩
  · intro h hh a ha i hi
    have hbytes : Sdk.bytesOf data.sent data.received h.direction = data.data h.direction := by cases h.direction <;> rfl
    obtain ⟨x, hx, hxa, hx1, hx2⟩ := (Sdk.C50_commits parser re _ _ handlers hplain request response hq hr plan hplan
      h.direction a i).2 ⟨h, hh, rfl, ha, by rw [hbytes]; exact hi⟩
    cases hcm : commit with
    | none =>
      rw [hcm] at hc2
      simp only [Sdk.RevealPlan.commitOf, ← hc2, Option.map_none] at hx
      exact absurd hx (by simp)
    | some kk =>
      obtain ⟨e7, e8⟩ := e3 kk hcm
      refine ⟨(x.start, x.stop), hx1, hx2, ?_⟩
      cases hd : h.direction with
      | sent =>
        rw [hd, (hcs kk hcm).1] at hx
        obtain ⟨y, hy, rfl⟩ := List.mem_map.1 hx
        obtain ⟨op, ho1, ho2⟩ := e7 y hy
        refine ⟨op, ho1, ?_⟩
        rw [← convertHash_eq, show convertHash y.algorithm = a from hxa] at ho2
        exact ho2
      | received =>
        rw [hd, (hcs kk hcm).2] at hx
        obtain ⟨y, hy, rfl⟩ := List.mem_map.1 hx
        obtain ⟨op, ho1, ho2⟩ := e8 y hy
        refine ⟨op, ho1, ?_⟩
        rw [← convertHash_eq, show convertHash y.algorithm = a from hxa] at ho2
        exact ho2
  · intro vv l version h1 h2 h3 h4
    obtain ⟨o, f1, -, -, -, -, f2, f3, f4, f5⟩ := e6 vv l version h1 h2 h3 h4
    refine ⟨o, f1, ?_, f3, fun i => (f4 i).trans ?_, fun i => (f5 i).trans ?_⟩
    · rw [f2, if_pos hsi]
    · rw [hrs.1]
      exact Sdk.C50_reveals parser re _ _ handlers hplain request response hq hr plan hplan .sent i
    · rw [hrs.2.1]
      exact Sdk.C50_reveals parser re _ _ handlers hplain request response hq hr plan hplan .received i

/-! ## Examples -/

/-- Two values that are the same, or both of which say that there is none. -/
def Alike (a b : JsVal) : Prop := a = b ∨ ((a = .null ∨ a = .undefined) ∧ (b = .null ∨ b = .undefined))

/-- The same fields, of which some may be `null` in one object and missing in the other. -/
structure AlikeFields (a b : JsVal) : Prop where
  objs : a.isObj = true ∧ b.isObj = true
  fields : ∀ key, Alike (a.get key) (b.get key)

theorem readOption_alike {α : Type} (f : JsVal → Option α) {a b : JsVal} (h : Alike a b) : readOption f a = readOption f b := by
  rcases h with rfl | ⟨rfl | rfl, rfl | rfl⟩ <;> rfl

theorem readNamed_alike {α : Type} (l : List (String × α)) {a b : JsVal} (h : Alike a b) : readNamed l a = readNamed l b := by
  rcases h with rfl | ⟨rfl | rfl, rfl | rfl⟩ <;> rfl

theorem readParams_alike {a b : JsVal} (h : AlikeFields a b) : readParams a = readParams b := by
  rw [readParams, readParams, if_pos h.objs.1, if_pos h.objs.2]
  simp only [readOption_alike _ (h.fields _)]

/-- **C122**: in a handler and in its parameters, `null` for an option is the same as leaving it out. -/
theorem C122_null (v w : JsVal) (hv : v.isObj = true) (hw : w.isObj = true)
    (h : ∀ key, key ≠ "params" → Alike (v.get key) (w.get key))
    (hp : Alike (v.get "params") (w.get "params") ∨ AlikeFields (v.get "params") (w.get "params")) :
    readHandler v = readHandler w := by
  have hp' : readOption readParams (v.get "params") = readOption readParams (w.get "params") := by
    rcases hp with hp | hp
    · exact readOption_alike _ hp
    · have e : ∀ x : JsVal, x.isObj = true → readOption readParams x = (readParams x).map some := by
        intro x hx
        cases x <;> first | rfl | cases hx
      rw [e _ hp.objs.1, e _ hp.objs.2, readParams_alike hp]
  have ha : readAction (v.get "action") = readAction (w.get "action") := by
    rcases h "action" (by decide) with h | ⟨h1, h2⟩
    · rw [h]
    · rcases h1 with h1 | h1 <;> rcases h2 with h2 | h2 <;> rw [h1, h2] <;> rfl
  rw [readHandler, readHandler, if_pos hv, if_pos hw]
  simp only [readDirection, readPart, readNamed_alike _ (h "type" (by decide)), readNamed_alike _ (h "part" (by decide)), ha, hp']

example : readHandler (.obj [("type", .str "SENT".toList), ("part", .str "ALL".toList),
    ("action", .obj [("kind", .str "REVEAL".toList)]), ("params", .obj [("key", .null), ("regex", .str "a".toList)])]) =
    some ⟨.sent, .all, .reveal, some { regex := some "a".toList }⟩ := by decide +kernel

/-- Handlers with all kinds of parameters survive. -/
example : readVec readHandler (JsVal.arr (Sdk.exHandlers.map handlerToJs)).forwarded = some Sdk.exHandlers :=
  (C122_handlers _).2

/-- A handler as a plugin writes it, with a field that is undefined and one that is not known. -/
example : readHandler (.obj [("type", .str "SENT".toList), ("part", .str "HEADERS".toList),
    ("action", .obj [("kind", .str "HASH".toList), ("algorithm", .str "SHA256".toList)]),
    ("params", .obj [("key", .str "host".toList), ("hideKey", .undefined), ("note", .num 1)])]) =
    some ⟨.sent, .headers, .hash .sha256, some { key := some "host".toList }⟩ := by decide +kernel

/-- A name of a part in lower case is an error. -/
example : readHandler (.obj [("type", .str "SENT".toList), ("part", .str "headers".toList),
    ("action", .obj [("kind", .str "REVEAL".toList)])]) = none := by decide +kernel

/-- What would happen with a serializer that makes a `Map`: the handler is lost when it is forwarded. -/
example : readHandler (JsVal.map [("type", .str "SENT".toList), ("part", .str "ALL".toList),
    ("action", .obj [("kind", .str "REVEAL".toList)])]).forwarded = none := by decide +kernel

/-- The messages of the session of the example: a request of five bytes and a response of one byte. -/
def exPlugRequest : Sdk.HttpMessage where
  span := Sdk.sp 0 5
  start := .request (Sdk.sp 0 5) (Sdk.sp 0 2) (Sdk.sp 2 4)
  headers := []
  body := none

def exPlugResponse : Sdk.HttpMessage where
  span := Sdk.sp 0 1
  start := .status (Sdk.sp 0 1) (Sdk.sp 0 1) (Sdk.sp 1 1)
  headers := []
  body := none

def exPlugParser : Sdk.HttpParser := ⟨fun _ => some exPlugRequest, fun _ => some exPlugResponse⟩

/-- The method and the status code are revealed, the target is committed to. -/
def exPlugHandlers : List Sdk.Handler :=
  [⟨.sent, .method, .reveal, none⟩, ⟨.sent, .requestTarget, .hash .sha256, none⟩, ⟨.received, .statusCode, .reveal, none⟩]

theorem exPlug_below : Sdk.MessageBelow exData.sent.length exPlugRequest ∧
    Sdk.MessageBelow exData.received.length exPlugResponse := by
  have l1 : exData.sent.length = 5 := by decide +kernel
  have l2 : exData.received.length = 1 := by decide +kernel
  rw [l1, l2]
  have b : ∀ {a c n}, c ≤ n → Sdk.Below n (Sdk.sp a c) := fun h i hi => Nat.lt_of_lt_of_le (Sdk.mem_sp.1 hi).2 h
  refine ⟨⟨b (by decide), b (by decide), ?_, ?_, (fun x h => nomatch h), (fun x h => nomatch h)⟩,
    ⟨b (by decide), b (by decide), ?_, ?_, (fun x h => nomatch h), (fun x h => nomatch h)⟩⟩
  · intro s m t h; cases h; exact ⟨b (by decide), b (by decide)⟩
  · intro s m t h; cases h
  · intro s m t h; cases h
  · intro s m t h; cases h; exact ⟨b (by decide), b (by decide)⟩

/-- Example for `C122_plugin`: its hypotheses are met. -/
example := C122_plugin exPlugParser Sdk.exRegex exPlugHandlers _ (C122_handlers exPlugHandlers).1
  (by
    intro h hh path ⟨p, hp, _⟩
    simp only [exPlugHandlers, List.mem_cons, List.not_mem_nil, or_false] at hh
    rcases hh with rfl | rfl | rfl <;> cases hp)
  (by
    intro pat f hf x r hr
    unfold Sdk.exRegex at hf
    split at hf
    · cases hf
      rw [List.mem_singleton.1 hr]
      exact ⟨Nat.zero_le _, Nat.min_le_right _ _⟩
    · cases hf)
  Protocol.exEnv exKeyBytes exCerts rfl exTls_wf [1, 2] Protocol.exHsd exBlinders exData rfl
  (by decide +kernel) (by decide +kernel) exPlugRequest exPlugResponse rfl rfl exPlug_below.1 exPlug_below.2
  (by
    intro h hh
    simp only [exPlugHandlers, List.mem_cons, List.not_mem_nil, or_false] at hh
    rcases hh with rfl | rfl | rfl
    · exact ⟨_, _, _, rfl⟩
    · exact ⟨_, _, _, rfl⟩
    · exact ⟨_, _, _, rfl⟩)
  (by
    intro h hh a ha
    simp only [exPlugHandlers, List.mem_cons, List.not_mem_nil, or_false] at hh
    rcases hh with rfl | rfl | rfl <;> cases ha
    decide +kernel)
  (exZkVm fun _ => 0) (exHoldsKeys _) exSdkConfig exJsProver rfl id (fun _ => .refl _) ⟨_, rfl, by decide +kernel⟩
  (fun a => (exCircuits a).map fun f => ⟨a, fun m => (f m).toList⟩)
  (fun a f hf => ⟨⟨a, fun m => (f m).toList⟩, by simp [show exCircuits a = some f from hf], rfl, fun _ => rfl⟩)

/-- The output of the example: the documented names are missing. -/
example : (match jsComputeReveal exPlugParser Sdk.exRegex exData.sent exData.received (.arr (exPlugHandlers.map handlerToJs)) with
    | some out => decide ((readReveal (out.get "reveal")).map (fun r => (r.sent, r.recv, r.serverIdentity)) = some ([(0, 2)], [(0, 1)], true) ∧
        ((readCommit (out.get "commit")).map fun c => c.sent.map fun x => (x.start, x.stop)) = some [(2, 4)] ∧
        (readVec readRange (out.get "sentRanges")).isNone)
    | none => false) = true := by decide +kernel

end Tlsn.Wasm
