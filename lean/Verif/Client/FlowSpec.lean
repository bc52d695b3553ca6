import Verif.Client.Conn
import Verif.Tls.FrameSpec

/-!
# What goes in and out of a connection

What the caller sees is the list of calls and replies; what happens inside is the list of events.
-/

namespace Tlsn.Client

/-! ## What the caller sees -/

/-- The plaintext that the caller has read. -/
def readOut (out : List (Call × CReply)) : Bytes :=
  out.flatMap fun
    | (.readPlaintext _, .data b) => b
    | _ => []

/-- The plaintext that was accepted from the caller. -/
def written (out : List (Call × CReply)) : Bytes :=
  out.flatMap fun
    | (.writePlaintext buf, .count n) => buf.take n
    | _ => []

/-- The bytes that were read from the server. -/
def wireIn (out : List (Call × CReply)) : Bytes :=
  out.flatMap fun
    | (.readTls avail, .count n) => avail.take n
    | _ => []

/-- The bytes that were written to the server. -/
def wireOut (out : List (Call × CReply)) : Bytes :=
  out.flatMap fun
    | (.writeTls _, .data b) => b
    | _ => []

/-! ## What happens inside -/

/-- Application data that is made available to the caller. -/
def Ev.delivered : Ev → Bytes
  | .deliver p => p
  | _ => []

def deliveredOf (log : List Ev) : Bytes := log.flatMap Ev.delivered

/-- The application data in a record. -/
def dataOf (m : OpaqueMessage) : Bytes := if m.typ = .applicationData then m.payload else []

/-- Application data that is given to the leader to be encrypted. -/
def Ev.sent : Ev → Bytes
  | .pushOut m _ => dataOf m
  | _ => []

def sentOf (log : List Ev) : Bytes := log.flatMap Ev.sent

/-- Messages that are processed: records before the server's change of cipher spec, messages decrypted by the leader after it. -/
def Ev.heard : Ev → List OpaqueMessage
  | .plain m => [m]
  | .nextIn (.ok (some m)) => [m]
  | _ => []

def heardOf (log : List Ev) : List OpaqueMessage := log.flatMap Ev.heard

/-- Records that are taken from the stream. -/
def Ev.record : Ev → List OpaqueMessage
  | .plain m => [m]
  | .pushIn m _ => [m]
  | _ => []

def recordsOf (log : List Ev) : List OpaqueMessage := log.flatMap Ev.record

/-- The records `l` carry the message `m` in pieces of at most `n` bytes. -/
structure Fragments (n : Nat) (m : OpaqueMessage) (l : List OpaqueMessage) : Prop where
  payload : (l.map (·.payload)).flatten = m.payload
  same : ∀ x ∈ l, x.typ = m.typ ∧ x.version = m.version ∧ x.payload.length ≤ n
  full : ∀ x ∈ l.dropLast, x.payload.length = n
  nonempty : l ≠ []

/-- The version in the header of an unencrypted record: RFC 5246, appendix E.1. -/
def headerVersion : MessagePayload → ProtocolVersion
  | .handshake ⟨_, .clientHello _⟩ => .tls10
  | _ => .tls12

/-- The bytes for the server: the messages sent unencrypted, and the records from the leader, in the order of the events. -/
inductive WireOf (n : Nat) : List Ev → Bytes → Prop where
  | nil : WireOf n [] []
  | clear {log b m l} : WireOf n log b → Fragments n ⟨m.contentType, headerVersion m, m.encode⟩ l →
      WireOf n (log ++ [.clear m]) (b ++ (l.map frameBytes).flatten)
  | record {log b m} : WireOf n log b → WireOf n (log ++ [.nextOut (.ok (some m))]) (b ++ frameBytes m)
  | other {log b e} : WireOf n log b → (∀ m, e ≠ .clear m) → (∀ m, e ≠ .nextOut (.ok (some m))) → WireOf n (log ++ [e]) b

/-- A message that says that the server closes the connection. -/
def IsClose (m : OpaqueMessage) : Prop := m.typ = .alert ∧ ∃ level, m.payload = [level, 0]

end Tlsn.Client
