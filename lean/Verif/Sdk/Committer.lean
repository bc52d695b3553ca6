import Verif.Sdk.Http
import Verif.Config.Model

/-!
# Model of crates/formats: the default HTTP and JSON committers

crates/formats/src/http/commit.rs and crates/formats/src/json/commit.rs.  The traits are modelled with
their default methods, which is what `DefaultHttpCommitter` (crates/formats/src/http/commit.rs:410-414) and
`DefaultJsonCommitter` (crates/formats/src/json/commit.rs:246-250) use.  The two error types wrap the builder's error, which
is the one kept here.
-/

namespace Tlsn.Sdk

/-- `builder.commit(x, direction)` for something with a position set (`&dyn ToRangeSet`). -/
def commitSet (d : Direction) (b : CommitBuilder) (s : RangeSet) : Except IndexError CommitBuilder :=
  b.commit s.ranges d

/-- `object.without_pairs()` (crates/formats/src/json/commit.rs:94): the object's positions outside its pairs. -/
def withoutPairs (s : RangeSet) (elems : Pairs) : RangeSet :=
  elems.toList.foldl (fun acc kv => acc.diff kv.span) s

/-- `array.without_values()` (crates/formats/src/json/commit.rs:152): the array "excluding all values and separators".  Which
positions `spansy` leaves is a parameter. -/
abbrev ArrayFrame := RangeSet → Jsons → RangeSet

/-- crates/formats/src/json/commit.rs:140-162 `commit_array`. -/
def commitArray (w : ArrayFrame) (d : Direction) (b : CommitBuilder) (s : RangeSet) (elems : Jsons) :
    Except IndexError CommitBuilder :=
  match commitSet d b s with
  | .error e => .error e
  | .ok b1 => if elems.toList.isEmpty then .ok b1 else commitSet d b1 (w s elems)

mutual
/-- crates/formats/src/json/commit.rs:61-75 `commit_value`, with `commit_object` (87-103), `commit_string` (174-189),
`commit_number` (198-208), `commit_bool` (217-227) and `commit_null` (236-246) in its branches. -/
def commitValue (w : ArrayFrame) (d : Direction) (b : CommitBuilder) : Json → Except IndexError CommitBuilder
  | .object s elems =>
    match commitSet d b (withoutPairs s elems) with
    | .error e => .error e
    | .ok b1 => commitPairs w d b1 elems
  | .array s elems => commitArray w d b s elems
  | .string s => if s.isEmpty then .ok b else commitSet d b s
  | .number s => commitSet d b s
  | .bool s => commitSet d b s
  | .null s => commitSet d b s
/-- The loop of crates/formats/src/json/commit.rs:98-100 with `commit_key_value` (114-128). -/
def commitPairs (w : ArrayFrame) (d : Direction) (b : CommitBuilder) : Pairs → Except IndexError CommitBuilder
  | .nil => .ok b
  | .cons s k v rest =>
    match commitSet d b (KeyValue.withoutValue ⟨s, k, v⟩) with
    | .error e => .error e
    | .ok b1 =>
      match commitValue w d b1 v with
      | .error e => .error e
      | .ok b2 => commitPairs w d b2 rest
end

/-- crates/formats/src/http/commit.rs:194-225 `commit_request_header` and 331-367 `commit_response_header`. -/
def commitHeader (d : Direction) (b : CommitBuilder) (h : Header) : Except IndexError CommitBuilder :=
  match commitSet d b h.span with
  | .error e => .error e
  | .ok b1 => if h.value.isEmpty then .ok b1 else commitSet d b1 h.withoutValue

/-- The loops of crates/formats/src/http/commit.rs:145-147 and 308-310. -/
def commitHeaders (d : Direction) (b : CommitBuilder) : List Header → Except IndexError CommitBuilder
  | [] => .ok b
  | h :: hs => match commitHeader d b h with
    | .error e => .error e
    | .ok b1 => commitHeaders d b1 hs

/-- crates/formats/src/http/commit.rs:239-270 `commit_request_body` and 381-411 `commit_response_body`. -/
def commitBody (w : ArrayFrame) (d : Direction) (b : CommitBuilder) (body : Body) : Except IndexError CommitBuilder :=
  match body.content with
  | some root => commitValue w d b root
  | none => commitSet d b body.span

/-- `request.without_data()` (crates/formats/src/http/commit.rs:132): the request without target, headers and body; and
`response.without_data()` (298): the response without headers and body. -/
def HttpMessage.withoutData (m : HttpMessage) : RangeSet :=
  let s0 := match m.start with
    | .request _ _ target => m.span.diff target
    | .status .. => m.span
  let s1 := m.headers.foldl (fun acc h => acc.diff h.span) s0
  match m.body with
  | some b => s1.diff b.span
  | none => s1

/-- crates/formats/src/http/commit.rs:165-181 `commit_target`: requests only. -/
def commitTarget (d : Direction) (b : CommitBuilder) (m : HttpMessage) : Except IndexError CommitBuilder :=
  match m.start with
  | .request _ _ target => commitSet d b target
  | .status .. => .ok b

/-- crates/formats/src/http/commit.rs:130-141 and 296-306: the message without its data, if it has any. -/
def commitRest (d : Direction) (b : CommitBuilder) (m : HttpMessage) : Except IndexError CommitBuilder :=
  if !m.headers.isEmpty || m.body.isSome then commitSet d b m.withoutData else .ok b

/-- crates/formats/src/http/commit.rs:116-154 `commit_request` and 282-317 `commit_response`: they differ in the target only. -/
def commitMessage (w : ArrayFrame) (d : Direction) (b : CommitBuilder) (m : HttpMessage) :
    Except IndexError CommitBuilder :=
  match commitSet d b m.span with
  | .error e => .error e
  | .ok b1 =>
    match commitRest d b1 m with
    | .error e => .error e
    | .ok b2 =>
      match commitTarget d b2 m with
      | .error e => .error e
      | .ok b3 =>
        match commitHeaders d b3 m.headers with
        | .error e => .error e
        | .ok b4 =>
          match m.body with
          | some body => commitBody w d b4 body
          | none => .ok b4

/-- The loops of crates/formats/src/http/commit.rs:94-100. -/
def commitMessages (w : ArrayFrame) (d : Direction) (b : CommitBuilder) :
    List HttpMessage → Except IndexError CommitBuilder
  | [] => .ok b
  | m :: ms => match commitMessage w d b m with
    | .error e => .error e
    | .ok b1 => commitMessages w d b1 ms

/-- crates/formats/src/http/commit.rs:89-103 `commit_transcript`. -/
def commitTranscript (w : ArrayFrame) (b : CommitBuilder) (requests responses : List HttpMessage) :
    Except IndexError CommitBuilder :=
  match commitMessages w .sent b requests with
  | .error e => .error e
  | .ok b1 => commitMessages w .received b1 responses

end Tlsn.Sdk
