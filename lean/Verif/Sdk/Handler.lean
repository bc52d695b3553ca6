import Verif.Sdk.Http
import Verif.Config.Model

/-!
# Model of crates/sdk-core/src/handler
-/

namespace Tlsn.Sdk

/-- crates/sdk-core/src/types.rs:330-347 `HandlerPart`. -/
inductive Part where
  | startLine | protocol | method | requestTarget | statusCode | headers | body | all
  deriving DecidableEq, Repr

/-- crates/sdk-core/src/types.rs:352-359 `HashAlgorithm`. -/
inductive HashAlgorithm where
  | blake3 | sha256 | keccak256
  deriving DecidableEq, Repr

/-- crates/sdk-core/src/types.rs:361-369 `From<HashAlgorithm> for HashAlgId`. -/
def HashAlgorithm.id : HashAlgorithm → HashAlgId
  | .blake3 => .blake3
  | .sha256 => .sha256
  | .keccak256 => .keccak256

/-- crates/sdk-core/src/types.rs:403-411 `HandlerAction`. -/
inductive Action where
  | reveal
  | hash (alg : HashAlgorithm)
  deriving DecidableEq, Repr

/-- crates/sdk-core/src/types.rs:416-438 `HandlerParams`. -/
structure Params where
  key : Option Text := none
  hideKey : Option Bool := none
  hideValue : Option Bool := none
  contentType : Option Text := none
  path : Option Text := none
  regex : Option Text := none
  flags : Option Text := none
  deriving DecidableEq, Repr

/-- crates/sdk-core/src/types.rs:446-460 `Handler`; `HandlerType` (crates/sdk-core/src/types.rs:320-325) is the direction. -/
structure Handler where
  direction : Direction
  part : Part
  action : Action
  params : Option Params
  deriving DecidableEq, Repr

/-- The messages of `SdkError::handler` in extract.rs and mod.rs. -/
inductive HandlerError where
  | parseRequest
  | parseResponse
  | requestsOnly
  | responsesOnly
  | hideBoth
  | notJson
  | noPath
  | pathNotFound
  | badRegex
  deriving DecidableEq, Repr

/-- `regex::bytes::Regex` (a dependency): `none` for an invalid pattern, otherwise the matches of
`find_iter` in the bytes (crates/sdk-core/src/handler/extract.rs:340-347). -/
abbrev RegexEngine := Text → Option (Bytes → List Rng)

/-- Results of the extraction: `Result<Vec<Range<usize>>>` (the function itself never panics). -/
abbrev Extracted := Except HandlerError (List Rng)

/-- crates/sdk-core/src/handler/extract.rs:83-88 `extract_start_line`. -/
def extractStartLine (m : HttpMessage) : Extracted := .ok m.start.span.ranges

/-- crates/sdk-core/src/handler/extract.rs:90-119 `extract_protocol`. -/
def extractProtocol (m : HttpMessage) : Extracted :=
  match m.start with
  | .request s method target => .ok ((s.diff method).diff target).ranges
  | .status s code reason => .ok ((s.diff code).diff reason).ranges

/-- crates/sdk-core/src/handler/extract.rs:121-128 `extract_method`. -/
def extractMethod (m : HttpMessage) : Extracted :=
  match m.start with
  | .request _ method _ => .ok method.ranges
  | .status .. => .error .requestsOnly

/-- crates/sdk-core/src/handler/extract.rs:130-137 `extract_request_target`. -/
def extractRequestTarget (m : HttpMessage) : Extracted :=
  match m.start with
  | .request _ _ target => .ok target.ranges
  | .status .. => .error .requestsOnly

/-- crates/sdk-core/src/handler/extract.rs:139-146 `extract_status_code`. -/
def extractStatusCode (m : HttpMessage) : Extracted :=
  match m.start with
  | .request .. => .error .responsesOnly
  | .status _ code _ => .ok code.ranges

/-- crates/sdk-core/src/handler/extract.rs:174-192 `append_header_ranges`. -/
def headerRanges (h : Header) (hideKey hideValue : Bool) : List Rng :=
  if hideKey then h.value.ranges
  else if hideValue then h.withoutValue.ranges
  else h.span.ranges

/-- `params.and_then(|p| p.hide_key).unwrap_or(false)` (crates/sdk-core/src/handler/extract.rs:153). -/
def Handler.hidesKey (h : Handler) : Bool := (h.params.bind (·.hideKey)).getD false

/-- `params.and_then(|p| p.hide_value).unwrap_or(false)` (crates/sdk-core/src/handler/extract.rs:154). -/
def Handler.hidesValue (h : Handler) : Bool := (h.params.bind (·.hideValue)).getD false

/-- crates/sdk-core/src/handler/extract.rs:148-172 `extract_headers`. -/
def extractHeaders (h : Handler) (m : HttpMessage) : Extracted :=
  if h.hidesKey && h.hidesValue then .error .hideBoth
  else
    let hs := match h.params.bind (·.key) with
      | some key => m.headersWithName key
      | none => m.headers
    .ok (hs.flatMap fun x => headerRanges x h.hidesKey h.hidesValue)

/-- `path.rfind('.')` together with the two slices around the dot (crates/sdk-core/src/handler/extract.rs:316-317). -/
def rfindDot : Text → Option (Text × Text)
  | [] => none
  | c :: cs => match rfindDot cs with
    | some (p, k) => some (c :: p, k)
    | none => if c = '.' then some ([], cs) else none

/-- crates/sdk-core/src/handler/extract.rs:317-325 `split_json_path`. -/
def splitJsonPath (path : Text) : Option (Text × Text) :=
  if path.isEmpty then none
  else match rfindDot path with
    | some (p, k) => some (p, k)
    | none => some ([], path)

/-- crates/sdk-core/src/handler/extract.rs:251-255 and 276-279: the parent is an object having that key. -/
def memberOf (key : Text) : Option Json → Option KeyValue
  | some (.object _ elems) => elems.toList.find? fun kv => kv.key = key
  | _ => none

/-- crates/sdk-core/src/handler/extract.rs:245-253 and 271-279: the pair of the parent object that the path names, if the parent
is an object having that key. -/
def findMember (root : Json) (path : Text) : Option KeyValue :=
  match splitJsonPath path with
  | none => none
  | some (parentPath, key) =>
    memberOf key (if parentPath.isEmpty then some root else root.get parentPath)

/-- crates/sdk-core/src/handler/extract.rs:292-308 `extract_kv_ranges`. -/
def kvRanges (kv : KeyValue) (hideKey hideValue : Bool) : List Rng :=
  if hideKey then kv.value.span.ranges
  else if hideValue then kv.withoutValue.ranges
  else kv.span.ranges

/-- crates/sdk-core/src/handler/extract.rs:265-282: the tail of `extract_json_body`, once the pair was not returned. -/
def extractJsonValue (root : Json) (path : Text) (hideKey hideValue : Bool) : Extracted :=
  match root.get path with
  | none => .error .pathNotFound
  | some value =>
    if !hideKey && !hideValue then
      match findMember root path with
      | some kv => .ok kv.span.ranges
      | none => .ok value.span.ranges
    else .ok value.span.ranges

/-- crates/sdk-core/src/handler/extract.rs:241-283: the pair if a part of it is to be hidden and there is one, else the value. -/
def extractJsonPath (root : Json) (path : Text) (hideKey hideValue : Bool) : Extracted :=
  if hideKey || hideValue then
    match findMember root path with
    | some kv => .ok (kvRanges kv hideKey hideValue)
    | none => extractJsonValue root path hideKey hideValue
  else extractJsonValue root path hideKey hideValue

/-- crates/sdk-core/src/handler/extract.rs:222-289 `extract_json_body`. -/
def extractJsonBody (p : Params) (b : Body) : Extracted :=
  match b.content with
  | none => .error .notJson
  | some root =>
    match p.path with
    | none => .error .noPath
    | some path =>
      let hideKey := p.hideKey.getD false
      let hideValue := p.hideValue.getD false
      if hideKey && hideValue then .error .hideBoth
      else extractJsonPath root path hideKey hideValue

/-- The literal `"json"` (crates/sdk-core/src/handler/extract.rs:210). -/
def jsonType : Text := ['j', 's', 'o', 'n']

/-- The literal `"regex"` (crates/sdk-core/src/handler/extract.rs:327). -/
def regexType : Text := ['r', 'e', 'g', 'e', 'x']

/-- crates/sdk-core/src/handler/extract.rs:195-220 `extract_body`. -/
def extractBody (h : Handler) (m : HttpMessage) : Extracted :=
  match m.body with
  | none => .ok []
  | some b =>
    match h.params with
    | none => .ok b.span.ranges
    | some p =>
      if p.contentType = some jsonType then extractJsonBody p b
      else .ok b.span.ranges

/-- crates/sdk-core/src/handler/extract.rs:327-340 `extract_all` and `extract_regex`. -/
def extractAll (re : RegexEngine) (h : Handler) (raw : Bytes) : Extracted :=
  match h.params with
  | none => .ok [(0, raw.length)]
  | some p =>
    if p.contentType = some regexType then
      match p.regex with
      | none => .ok [(0, raw.length)]
      | some pattern =>
        match re pattern with
        | none => .error .badRegex
        | some find => .ok (find raw)
    else .ok [(0, raw.length)]

/-- crates/sdk-core/src/handler/extract.rs:23-39 `extract_ranges`. -/
def extractRanges (re : RegexEngine) (h : Handler) (m : HttpMessage) (raw : Bytes) : Extracted :=
  match h.part with
  | .startLine => extractStartLine m
  | .protocol => extractProtocol m
  | .method => extractMethod m
  | .requestTarget => extractRequestTarget m
  | .statusCode => extractStatusCode m
  | .headers => extractHeaders h m
  | .body => extractBody h m
  | .all => extractAll re h raw

/-- crates/sdk-core/src/types.rs:246-253 `CommitRange`. -/
structure CommitRange where
  start : Nat
  stop : Nat
  algorithm : HashAlgorithm
  deriving DecidableEq, Repr

/-- crates/sdk-core/src/types.rs:264-269 `Commit`. -/
structure Commit where
  sent : List CommitRange
  recv : List CommitRange
  deriving DecidableEq, Repr

/-- crates/sdk-core/src/types.rs:273-280 `Reveal`. -/
structure Reveal where
  sent : List Rng
  recv : List Rng
  serverIdentity : Bool
  deriving DecidableEq, Repr

/-- crates/sdk-core/src/handler/mod.rs:26-33 `RangeWithHandler`. -/
structure Annotated where
  range : Rng
  handler : Handler
  deriving DecidableEq, Repr

/-- crates/sdk-core/src/handler/mod.rs:37-48 `ComputeRevealOutput`. -/
structure RevealPlan where
  reveal : Reveal
  commit : Option Commit
  sentAnnotated : List Annotated
  recvAnnotated : List Annotated
  deriving DecidableEq, Repr

/-- The six vectors of crates/sdk-core/src/handler/mod.rs:77-82. -/
structure Lists where
  revealSent : List Rng := []
  revealRecv : List Rng := []
  commitSent : List CommitRange := []
  commitRecv : List CommitRange := []
  sentAnnotated : List Annotated := []
  recvAnnotated : List Annotated := []

/-- crates/sdk-core/src/handler/mod.rs:93-104: the annotations of one handler. -/
def Lists.annotate (s : Lists) (h : Handler) (rs : List Rng) : Lists :=
  match h.direction with
  | .sent => { s with sentAnnotated := s.sentAnnotated ++ rs.map (⟨·, h⟩) }
  | .received => { s with recvAnnotated := s.recvAnnotated ++ rs.map (⟨·, h⟩) }

/-- crates/sdk-core/src/handler/mod.rs:106-124: the ranges of one handler go to the list of its action and direction. -/
def Lists.act (s : Lists) (h : Handler) (rs : List Rng) : Lists :=
  match h.action with
  | .hash alg =>
    let cs := rs.map fun r => CommitRange.mk r.1 r.2 alg
    match h.direction with
    | .sent => { s with commitSent := s.commitSent ++ cs }
    | .received => { s with commitRecv := s.commitRecv ++ cs }
  | .reveal =>
    match h.direction with
    | .sent => { s with revealSent := s.revealSent ++ rs }
    | .received => { s with revealRecv := s.revealRecv ++ rs }

/-- One iteration of the loop, crates/sdk-core/src/handler/mod.rs:87-125. -/
def stepHandler (re : RegexEngine) (request response : HttpMessage) (sent recv : Bytes) (s : Lists)
    (h : Handler) : Except HandlerError Lists :=
  match (match h.direction with
    | .sent => extractRanges re h request sent
    | .received => extractRanges re h response recv) with
  | .error e => .error e
  | .ok rs => .ok ((s.annotate h rs).act h rs)

/-- The loop, crates/sdk-core/src/handler/mod.rs:87-125. -/
def runHandlers (re : RegexEngine) (request response : HttpMessage) (sent recv : Bytes) (s : Lists) :
    List Handler → Except HandlerError Lists
  | [] => .ok s
  | h :: hs => match stepHandler re request response sent recv s h with
    | .error e => .error e
    | .ok s' => runHandlers re request response sent recv s' hs

/-- The parser: `spansy::http::parse_request` and `parse_response` (crates/sdk-core/src/handler/mod.rs:72-75). -/
structure HttpParser where
  request : Bytes → Option HttpMessage
  response : Bytes → Option HttpMessage

/-- crates/sdk-core/src/handler/mod.rs:67-146 `compute_reveal`. -/
def computeReveal (parser : HttpParser) (re : RegexEngine) (sent recv : Bytes) (handlers : List Handler) :
    Except HandlerError RevealPlan :=
  match parser.request sent with
  | none => .error .parseRequest
  | some request =>
    match parser.response recv with
    | none => .error .parseResponse
    | some response =>
      match runHandlers re request response sent recv {} handlers with
      | .error e => .error e
      | .ok s =>
        .ok
          { reveal := ⟨s.revealSent, s.revealRecv, true⟩
            commit :=
              if s.commitSent.isEmpty && s.commitRecv.isEmpty then none
              else some ⟨s.commitSent, s.commitRecv⟩
            sentAnnotated := s.sentAnnotated
            recvAnnotated := s.recvAnnotated }

end Tlsn.Sdk
