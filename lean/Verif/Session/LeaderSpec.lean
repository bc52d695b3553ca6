import Verif.Session.Leader
import Verif.Session.Spec

/-! # Vocabulary for the properties of a leader -/

namespace Tlsn.Mpc

/-- A call that did not fail. -/
def LResult.Fine : LResult → Prop
  | .failed _ => False
  | .panicked => False
  | _ => True

/-- The calls that belong to the handshake. -/
def LCall.isHandshake : LCall → Bool
  | .alloc _ _ => true
  | .preprocess _ => true
  | .prepareEncryption _ => true
  | .clientFinishedVd _ => true
  | .serverFinishedVd _ => true
  | _ => false

/-- The calls of the handshake, in order. -/
def handshakeCalls (calls : List (LCall × World)) : List LCall := (calls.map (·.1)).filter LCall.isHandshake

/-- The hashes for which the client's verify data were asked. -/
def clientVdCalls (calls : List (LCall × World)) : List Bytes :=
  calls.filterMap fun x => match x.1 with | .clientFinishedVd h => some h | _ => none

/-- The hashes for which the server's verify data were asked. -/
def serverVdCalls (calls : List (LCall × World)) : List Bytes :=
  calls.filterMap fun x => match x.1 with | .serverFinishedVd h => some h | _ => none

/-- The verify data of each side were asked for at most once. -/
def VdOnce (calls : List (LCall × World)) : Prop := (clientVdCalls calls).length ≤ 1 ∧ (serverVdCalls calls).length ≤ 1

/-- The records that the calls ask to send, numbered from `n`. -/
def outgoings (n : Nat) : List LCall → List Sending
  | [] => []
  | .pushOutgoing m :: cs => ⟨n, m.typ, m.version, m.payload.length, some m.payload⟩ :: outgoings (n + 1) cs
  | _ :: cs => outgoings n cs

/-- The records that the calls say have arrived, numbered from `n`: eight bytes of nonce, the ciphertext, sixteen bytes of tag. -/
def incomings (n : Nat) : List LCall → List Receiving
  | [] => []
  | .pushIncoming m :: cs =>
    ⟨n, m.typ, m.version, m.payload.take 8, (m.payload.drop 8).take (m.payload.length - 24),
      m.payload.drop (m.payload.length - 16)⟩ :: incomings (n + 1) cs
  | _ :: cs => incomings n cs

/-- A sending as the follower is told about it. -/
def Sending.told (s : Sending) : Sending := { s with plaintext := if s.typ = .applicationData then none else s.plaintext }

end Tlsn.Mpc
