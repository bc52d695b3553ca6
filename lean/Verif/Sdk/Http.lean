import Verif.Base.RangeSet
import Verif.Transcript.Model

/-!
# Parsed HTTP and JSON messages

The parser `spansy` is a dependency that is not part of /repo.  Its result is modelled as data: every
element of a message carries the set of positions it occupies.  The accessors used by /repo are
modelled by their documented meaning: `without_value` and its siblings remove the positions of the
part they name, `get` follows a path of keys and indices separated by dots.
-/

namespace Tlsn.Sdk

/-- A Rust `String`: the list of its characters. -/
abbrev Text := List Char

mutual
/-- `spansy::json::JsonValue`, as used in crates/sdk-core/src/handler/extract.rs:220-282 and
crates/formats/src/json/commit.rs:61-75.  The first argument is the position set of the value. -/
inductive Json where
  | object (span : RangeSet) (elems : Pairs)
  | array (span : RangeSet) (elems : Jsons)
  | string (span : RangeSet)
  | number (span : RangeSet)
  | bool (span : RangeSet)
  | null (span : RangeSet)
/-- `Vec<KeyValue>`, the `elems` of an object: position set, key and value of each pair. -/
inductive Pairs where
  | nil
  | cons (span : RangeSet) (key : Text) (value : Json) (rest : Pairs)
/-- `Vec<JsonValue>`, the `elems` of an array. -/
inductive Jsons where
  | nil
  | cons (value : Json) (rest : Jsons)
end

/-- `spansy::json::KeyValue` (crates/sdk-core/src/handler/extract.rs:285-302). -/
structure KeyValue where
  span : RangeSet
  key : Text
  value : Json

/-- The pairs of an object as a list (`obj.elems.iter()`, crates/sdk-core/src/handler/extract.rs:252). -/
def Pairs.toList : Pairs → List KeyValue
  | .nil => []
  | .cons s k v r => ⟨s, k, v⟩ :: r.toList

/-- The values of an array as a list. -/
def Jsons.toList : Jsons → List Json
  | .nil => []
  | .cons v r => v :: r.toList

/-- `value.view().indices()` (crates/sdk-core/src/handler/extract.rs:282). -/
def Json.span : Json → RangeSet
  | .object s _ => s
  | .array s _ => s
  | .string s => s
  | .number s => s
  | .bool s => s
  | .null s => s

/-- `kv.without_value()` (crates/sdk-core/src/handler/extract.rs:296). -/
def KeyValue.withoutValue (kv : KeyValue) : RangeSet := kv.span.diff kv.value.span

/-- `path.split('.')`, how `spansy` reads a path. -/
def splitDots : Text → List Text
  | [] => [[]]
  | c :: cs =>
    if c = '.' then [] :: splitDots cs
    else match splitDots cs with
      | [] => [[c]]
      | s :: r => (c :: s) :: r

/-- The decimal digits of `str::parse::<usize>`. -/
def digit (c : Char) : Option Nat :=
  if '0'.toNat ≤ c.toNat ∧ c.toNat ≤ '9'.toNat then some (c.toNat - '0'.toNat) else none

/-- `str::parse::<usize>` on a 64-bit target: an optional plus sign, at least one digit, no overflow. -/
def parseUsize (t : Text) : Option Nat :=
  let ds := match t with
    | '+' :: r => r
    | _ => t
  if ds.isEmpty then none
  else (ds.foldl (fun acc c => acc.bind fun n => (digit c).map (10 * n + ·)) (some 0)).bind
    fun n => if n < 2 ^ 64 then some n else none

/-- One step of `JsonValue::get`: the first member of that name, or the element of that index. -/
def Json.child (key : Text) : Json → Option Json
  | .object _ elems => (elems.toList.find? (fun kv => kv.key = key)).map (·.value)
  | .array _ elems => (parseUsize key).bind fun n => elems.toList[n]?
  | _ => none

/-- `get` on the parts of a path. -/
def Json.getParts (v : Json) : List Text → Option Json
  | [] => some v
  | k :: ks => (v.child k).bind fun w => w.getParts ks

/-- `doc.get(path)` (crates/sdk-core/src/handler/extract.rs:248, 264). -/
def Json.get (root : Json) (path : Text) : Option Json := root.getParts (splitDots path)

/-- `spansy::http::Header` (crates/sdk-core/src/handler/extract.rs:174-192). -/
structure Header where
  span : RangeSet
  name : Text
  value : RangeSet

/-- `header.without_value()` (crates/sdk-core/src/handler/extract.rs:185). -/
def Header.withoutValue (h : Header) : RangeSet := h.span.diff h.value

/-- `spansy::http::Body`: `content` is the root of the document for `BodyContent::Json` and `none` for
any other content (crates/sdk-core/src/handler/extract.rs:222-225). -/
structure Body where
  span : RangeSet
  content : Option Json

/-- The start line of a request or of a response (crates/sdk-core/src/handler/extract.rs:83-152). -/
inductive StartLine where
  | request (span method target : RangeSet)
  | status (span code reason : RangeSet)

/-- The start line's positions. -/
def StartLine.span : StartLine → RangeSet
  | .request s _ _ => s
  | .status s _ _ => s

/-- crates/sdk-core/src/handler/extract.rs:41-81 `HttpMessage` and its accessors, over `spansy`'s `Request` and `Response`. -/
structure HttpMessage where
  span : RangeSet
  start : StartLine
  headers : List Header
  body : Option Body

/-- `u8::to_ascii_lowercase` on characters. -/
def lowerAscii (c : Char) : Char :=
  if 'A'.toNat ≤ c.toNat ∧ c.toNat ≤ 'Z'.toNat then Char.ofNat (c.toNat + 32) else c

/-- `headers_with_name` (crates/sdk-core/src/handler/extract.rs:66-74): header names are compared ignoring ASCII case. -/
def HttpMessage.headersWithName (m : HttpMessage) (name : Text) : List Header :=
  m.headers.filter fun h => h.name.map lowerAscii = name.map lowerAscii

end Tlsn.Sdk
