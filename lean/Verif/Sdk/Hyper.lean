import Verif.Base.Basic

/-! # The HTTP request and response of the SDK

crates/sdk-core/src/types.rs, crates/sdk-core/src/prover.rs and the conversions of crates/wasm/src/prover/mod.rs: what the caller
asks for becomes a request of `hyper`, and its response a value for the caller. What `hyper` writes and reads is not modelled;
a request has fewer than 2^15 headers (the limit of the header map). -/

namespace Tlsn.SdkHttp

/-- A text, as UTF-8 where it becomes bytes. -/
abbrev Text := List Char

/-- crates/sdk-core/src/types.rs:25-34 and crates/wasm/src/types.rs:22-31 `Method` -/
inductive Method where
  | get
  | post
  | put
  | delete
  deriving DecidableEq, Repr

/-- crates/sdk-core/src/types.rs:36-45 The method of `hyper`, by its name on the wire. -/
def Method.wire : Method → String
  | .get => "GET"
  | .post => "POST"
  | .put => "PUT"
  | .delete => "DELETE"

/-- A JSON value: a string, or another value of a type `J`. -/
inductive Json (J : Type) where
  | str (s : Text)
  | other (v : J)

/-- crates/sdk-core/src/types.rs:15-20 `Body` -/
inductive Body (J : Type) where
  | json (v : Json J)
  | raw (b : Bytes)

/-- A hash map, as the list of its entries in the order in which it lists them. -/
abbrev Map := List (Text × Bytes)

/-- `insert` of a hash map: an entry of the key is replaced. -/
def Map.insert (m : Map) (k : Text) (v : Bytes) : Map := m.filter (fun e => e.1 ≠ k) ++ [(k, v)]

/-- crates/sdk-core/src/types.rs:49-58 `HttpRequest` -/
structure Request (J : Type) where
  uri : Text
  method : Method
  headers : Map
  body : Option (Body J)

/-- crates/wasm/src/types.rs:36-45 `HttpRequest` of JavaScript: its body is JSON. -/
structure JsRequest (J : Type) where
  uri : Text
  method : Method
  headers : Map
  body : Option (Json J)

/-- crates/sdk-core/src/types.rs:62-69 `new` -/
def Request.new {J : Type} (method : Method) (uri : Text) : Request J := ⟨uri, method, [], none⟩

/-- crates/sdk-core/src/types.rs:82-85 `header` -/
def Request.header {J : Type} (r : Request J) (name : Text) (value : Bytes) : Request J :=
  { r with headers := Map.insert r.headers name value }

/-- crates/wasm/src/prover/mod.rs:215-237 `convert_http_request` -/
def convertRequest {J : Type} (r : JsRequest J) : Request J :=
  let method : Method := match r.method with
    | .get => .get
    | .post => .post
    | .put => .put
    | .delete => .delete
  let core := r.headers.foldl (fun c h => c.header h.1 h.2) (Request.new method r.uri)
  match r.body with
  | some v => { core with body := some (.json v) }
  | none => core

/-- What `hyper` makes of the parts of a request. -/
structure Hyper (J : Type) where
  uri : Text → Option Bytes
  name : Text → Option Bytes
  value : Bytes → Option Bytes
  utf8 : Text → Bytes
  render : J → Bytes

/-- A request of `hyper`; the headers in the order in which they were added. -/
structure HyperRequest where
  method : String
  uri : Bytes
  headers : List (Bytes × Bytes)
  body : Bytes
  deriving DecidableEq, Repr

/-- crates/sdk-core/src/types.rs:107-109 The loop over the headers, on the builder of `hyper`: it keeps the first error. -/
def addHeaders {J : Type} (H : Hyper J) : Map → Option (List (Bytes × Bytes))
  | [] => some []
  | (n, v) :: rest =>
    match H.name n, H.value v with
    | some n', some v' =>
      match addHeaders H rest with
      | some hs => some ((n', v') :: hs)
      | none => none
    | _, _ => none

/-- crates/sdk-core/src/types.rs:111-127 The bytes of the body. -/
def Body.bytes {J : Type} (H : Hyper J) : Option (Body J) → Bytes
  | some (.json (.str s)) => H.utf8 s
  | some (.json (.other v)) => H.render v
  | some (.raw b) => b
  | none => []

/-- crates/sdk-core/src/types.rs:104-128 `try_from`; `order` is the order in which the hash map lists the headers. -/
def Request.toHyper {J : Type} (H : Hyper J) (order : Map → Map) (r : Request J) : Option HyperRequest :=
  match H.uri r.uri with
  | none => none
  | some uri =>
    match addHeaders H (order r.headers) with
    | none => none
    | some hs => some ⟨r.method.wire, uri, hs, Body.bytes H r.body⟩

/-! ## The response -/

/-- A header map: names with their values. -/
abbrev HeaderMap := List (Bytes × List Bytes)

/-- `HeaderMap::append`: a value of a name that is there goes after its other values. -/
def HeaderMap.append : HeaderMap → Bytes → Bytes → HeaderMap
  | [], n, v => [(n, [v])]
  | (m, vs) :: rest, n, v => if m = n then (m, vs ++ [v]) :: rest else (m, vs) :: HeaderMap.append rest n v

/-- The map of the headers that were received. -/
def HeaderMap.of (hs : List (Bytes × Bytes)) : HeaderMap := hs.foldl (fun m h => HeaderMap.append m h.1 h.2) []

/-- `HeaderMap::into_iter`: "each key will be yielded once per associated value": the name comes with the first value only. -/
def HeaderMap.intoIter (m : HeaderMap) : List (Option Bytes × Bytes) :=
  m.flatMap fun e => match e.2 with
    | [] => []
    | v :: vs => (some e.1, v) :: vs.map fun v => (none, v)

/-- crates/sdk-core/src/types.rs:133-140 `HttpResponse` -/
structure Response where
  status : Nat
  headers : List (Bytes × Bytes)
  body : Option Bytes
  deriving DecidableEq, Repr

/-- crates/sdk-core/src/prover.rs:510-536 What `send_request` makes of the status, the headers and the body that `hyper` has read;
`order` is the order in which the header map lists its names. -/
def makeResponse (order : HeaderMap → HeaderMap) (status : Nat) (hs : List (Bytes × Bytes)) (body : Bytes) : Response where
  status := status
  headers := (HeaderMap.intoIter (order (HeaderMap.of hs))).map fun e => (e.1.getD [], e.2)
  body := if body.isEmpty then none else some body

/-- crates/wasm/src/prover/mod.rs:239-244 `convert_http_response`: JavaScript does not get the body. -/
def convertResponse (r : Response) : Nat × List (Bytes × Bytes) := (r.status, r.headers)

end Tlsn.SdkHttp
