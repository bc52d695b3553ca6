import Verif.Wasm.Io

/-! # What is asked of the adapter of a JavaScript channel

In terms of what happened at its two sides: on one side the calls of the JavaScript object and what it answered, on the
other the operations of the stream and what they returned. -/

namespace Tlsn.Wasm

/-- The bytes of an answer of the object. -/
def Answer.bytes : Answer → Bytes
  | .value (some b) => b
  | _ => []

/-- The bytes that the object has given, in order. -/
def delivered (log : List Ev) : Bytes :=
  log.flatMap fun | .jsPoll _ a => a.bytes | _ => []

/-- The bytes that the reader has got, in order. -/
def received (log : List Ev) : Bytes :=
  log.flatMap fun | .gotRead _ _ (.ok b) => b | _ => []

/-- What the object gave and the reader did not get yet. -/
def unread (log : List Ev) : Bytes := (delivered log).drop (received log).length

/-- The object has said that its stream ends: it gave null, undefined or an empty array. -/
def Ended (log : List Ev) : Prop := ∃ t v, .jsPoll t (.value v) ∈ log ∧ (v = none ∨ v = some [])

/-- A read of the object has failed. -/
def Failed (log : List Ev) : Prop := (∃ e, .jsRead (.threw e) ∈ log) ∨ ∃ t e, .jsPoll t (.rejected e) ∈ log

/-- Whether a promise of `read` is not settled yet, after an event. -/
def outstandingStep (b : Bool) : Ev → Bool
  | .jsRead .promise => true
  | .jsPoll _ (.value _) => false
  | .jsPoll _ (.rejected _) => false
  | _ => b

/-- A promise of `read` is not settled yet. -/
def outstanding (log : List Ev) : Bool := log.foldl outstandingStep false

/-- `close` of the object was called and did not throw. -/
def Closed (log : List Ev) : Prop := .jsClose .promise ∈ log

/-- The bytes that writes have reported as written, in order. -/
def accepted (log : List Ev) : Bytes :=
  log.flatMap fun | .gotWrite data (.ok n) => data.take n | _ => []

/-- The bytes that the object took with a promise, in order. -/
def handed (log : List Ev) : Bytes :=
  log.flatMap fun | .jsWrite data (.promise _) => data | _ => []

/-- The bytes of the writes whose promise is fulfilled: what goes over the channel, in order. -/
def arrived (log : List Ev) : Bytes :=
  log.flatMap fun | .jsWrite data (.promise true) => data | _ => []

/-- An operation of the stream has reported an error. -/
def Reported (log : List Ev) : Prop :=
  (∃ n t e, .gotRead n t (.err e) ∈ log) ∨ (∃ d e, .gotWrite d (.err e) ∈ log) ∨ (∃ d, .gotWrite d .broken ∈ log) ∨
    (∃ e, .gotFlush (.err e) ∈ log) ∨ ∃ e, .gotClose (.err e) ∈ log

/-- The full property of a stream that is written to: as long as no operation reports an error, a flush that succeeds
means that everything reported as written has arrived. -/
def FlushMeansArrived (log : List Ev) : Prop :=
  ∀ pre post, log = pre ++ .gotFlush (.ok ()) :: post → ¬ Reported pre → arrived pre = accepted pre

end Tlsn.Wasm
