import Verif.Sdk.Handler

/-!
# Specification vocabulary for the SDK's handlers

What a handler selects, said in terms of positions of the message and without the code's algorithm.
-/

namespace Tlsn.Sdk

/-- The parts of a dotted path: joined with dots they give the path, and no part contains a dot. -/
def PathParts (path : Text) (parts : List Text) : Prop :=
  parts ≠ [] ∧ (∀ p ∈ parts, '.' ∉ p) ∧ path = (parts.intersperse ['.']).flatten

/-- A path all of whose parts are non-empty (`"user.name"`, but neither `""` nor `".name"`). -/
def PlainPath (path : Text) : Prop := ∀ parts, PathParts path parts → ∀ p ∈ parts, p ≠ []

/-- `kv` is the first pair with that key. -/
def FirstWithKey (elems : Pairs) (key : Text) (kv : KeyValue) : Prop :=
  kv.key = key ∧ ∃ before after, elems.toList = before ++ kv :: after ∧ ∀ x ∈ before, x.key ≠ key

/-- Following the parts of a path from a value leads to another value. -/
inductive Resolves : Json → List Text → Json → Prop where
  | here (v : Json) : Resolves v [] v
  | member {span elems key kv rest v} : FirstWithKey elems key kv → Resolves kv.value rest v →
      Resolves (.object span elems) (key :: rest) v
  | element {span elems key n w rest v} : parseUsize key = some n → elems.toList[n]? = some w →
      Resolves w rest v → Resolves (.array span elems) (key :: rest) v

/-- The path names the member `kv` of an object. -/
def NamesMember (root : Json) (parts : List Text) (kv : KeyValue) : Prop :=
  ∃ front key span elems, parts = front ++ [key] ∧ Resolves root front (.object span elems) ∧
    FirstWithKey elems key kv

/-- The positions of a pair (or header) that remain when its key or its value is hidden. -/
def Shown (hideKey hideValue : Bool) (whole value : RangeSet) (i : Nat) : Prop :=
  (hideKey = true → i ∈ value) ∧ (hideKey = false → i ∈ whole ∧ (hideValue = true → ¬ i ∈ value))

/-- Position `i` is selected by a JSON path: the shown positions of the pair it names, or the value it
leads to if that is not the member of an object. -/
def JsonSelects (root : Json) (path : Text) (hideKey hideValue : Bool) (i : Nat) : Prop :=
  ∃ parts, PathParts path parts ∧
    ((∃ kv, NamesMember root parts kv ∧ Shown hideKey hideValue kv.span kv.value.span i) ∨
     ((¬ ∃ kv, NamesMember root parts kv) ∧ ∃ v, Resolves root parts v ∧ i ∈ v.span))

/-- The handler asks for a JSON member: its content type is `json`. -/
def Handler.wantsJson (h : Handler) : Prop := ∃ p, h.params = some p ∧ p.contentType = some jsonType

/-- The handler asks for the matches of a pattern. -/
def Handler.wantsRegex (h : Handler) (pattern : Text) : Prop :=
  ∃ p, h.params = some p ∧ p.contentType = some regexType ∧ p.regex = some pattern

/-- The handler asks for the value at a path. -/
def Handler.wantsPath (h : Handler) (path : Text) : Prop := ∃ p, h.params = some p ∧ p.path = some path

/-- Two header names are the same up to ASCII case. -/
def SameName (a b : Text) : Prop := a.map lowerAscii = b.map lowerAscii

/-- Position `i` of the message is selected by the handler. -/
def Selects (re : RegexEngine) (h : Handler) (m : HttpMessage) (raw : Bytes) (i : Nat) : Prop :=
  match h.part with
  | .startLine => i ∈ m.start.span
  | .protocol => i ∈ m.start.span ∧
      (∀ s method target, m.start = .request s method target → ¬ i ∈ method ∧ ¬ i ∈ target) ∧
      (∀ s code reason, m.start = .status s code reason → ¬ i ∈ code ∧ ¬ i ∈ reason)
  | .method => ∃ s method target, m.start = .request s method target ∧ i ∈ method
  | .requestTarget => ∃ s method target, m.start = .request s method target ∧ i ∈ target
  | .statusCode => ∃ s code reason, m.start = .status s code reason ∧ i ∈ code
  | .headers => ∃ x ∈ m.headers, (∀ key, h.params.bind (·.key) = some key → SameName x.name key) ∧
      Shown h.hidesKey h.hidesValue x.span x.value i
  | .body => ∃ b, m.body = some b ∧
      (h.wantsJson → ∃ root path, b.content = some root ∧ h.wantsPath path ∧
        JsonSelects root path h.hidesKey h.hidesValue i) ∧
      (¬ h.wantsJson → i ∈ b.span)
  | .all => (∀ pattern, h.wantsRegex pattern → ∃ find, re pattern = some find ∧ RangesMem i (find raw)) ∧
      ((¬ ∃ pattern, h.wantsRegex pattern) → i < raw.length)

/-- The handler can be applied to the message. -/
def Applies (re : RegexEngine) (h : Handler) (m : HttpMessage) : Prop :=
  match h.part with
  | .startLine => True
  | .protocol => True
  | .method => ∃ s method target, m.start = .request s method target
  | .requestTarget => ∃ s method target, m.start = .request s method target
  | .statusCode => ∃ s code reason, m.start = .status s code reason
  | .headers => ¬ (h.hidesKey = true ∧ h.hidesValue = true)
  | .body => h.wantsJson → ∀ b, m.body = some b →
      ¬ (h.hidesKey = true ∧ h.hidesValue = true) ∧
      ∃ root path parts v, b.content = some root ∧ h.wantsPath path ∧ PathParts path parts ∧
        Resolves root parts v
  | .all => ∀ pattern, h.wantsRegex pattern → ∃ find, re pattern = some find

/-- The handler's path, if it has one, has no empty part. -/
def Handler.Plain (h : Handler) : Prop := ∀ path, h.wantsPath path → PlainPath path

/-- All positions of a set lie below `n`. -/
def Below (n : Nat) (s : RangeSet) : Prop := ∀ i ∈ s, i < n

/-- All positions a JSON document occupies lie below `n`. -/
inductive JsonBelow (n : Nat) : Json → Prop where
  | mk {v : Json} : Below n v.span →
      (∀ span elems, v = .object span elems → ∀ kv ∈ elems.toList, Below n kv.span) →
      (∀ span elems, v = .object span elems → ∀ kv ∈ elems.toList, JsonBelow n kv.value) →
      (∀ span elems, v = .array span elems → ∀ w ∈ elems.toList, JsonBelow n w) → JsonBelow n v

/-- All positions of a message lie below `n`: what the parser guarantees for a message of `n` bytes. -/
structure MessageBelow (n : Nat) (m : HttpMessage) : Prop where
  span : Below n m.span
  start : Below n m.start.span
  request : ∀ s method target, m.start = .request s method target → Below n method ∧ Below n target
  status : ∀ s code reason, m.start = .status s code reason → Below n code ∧ Below n reason
  headers : ∀ x ∈ m.headers, Below n x.span ∧ Below n x.value
  body : ∀ b, m.body = some b → Below n b.span ∧ ∀ root, b.content = some root → JsonBelow n root

end Tlsn.Sdk
