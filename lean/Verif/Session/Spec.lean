import Verif.Session.Model
import Verif.RecordLayer.Spec

/-! # Vocabulary for the properties of a connection -/

namespace Tlsn.Mpc

/-- A direction ends properly: with nothing, with application data, or with an alert that both parties see and that says
`close_notify` (RFC 5246, 7.2: the level, then the description 0). -/
def EndsProperly (records : List Record) : Prop :=
  ∀ last, records.getLast? = some last → last.typ = .applicationData ∨
    (last.typ = .alert ∧ ∃ level rest, last.plaintext = some (level :: 0 :: rest))

/-- The first record of a direction is a handshake message with the given body, after its header of four bytes. -/
def StartsWith (records : List Record) (body : Bytes) : Prop :=
  ∃ r header, records.head? = some r ∧ header.length = 4 ∧ r.plaintext = some (header ++ body)

/-- The messages that belong to the handshake. -/
def Msg.isHandshake : Msg → Bool
  | .setClientRandom _ => true
  | .serverHello _ => true
  | .clientFinishedVd _ => true
  | .serverFinishedVd _ => true
  | _ => false

/-- The messages of the handshake, in order. -/
def handshakes (input : List (Msg × World)) : List Msg := (input.map (·.1)).filter Msg.isHandshake

/-- The records that the messages ask to encrypt, numbered from `n`. -/
def sendings (n : Nat) : List Msg → List Sending
  | [] => []
  | .encrypt t v l p :: ms => ⟨n, t, v, l, p⟩ :: sendings (n + 1) ms
  | _ :: ms => sendings n ms

/-- The records that the messages ask to decrypt, numbered from `n`. -/
def receivings (n : Nat) : List Msg → List Receiving
  | [] => []
  | .decrypt t v nc ct tg :: ms => ⟨n, t, v, nc, ct, tg⟩ :: receivings (n + 1) ms
  | _ :: ms => receivings n ms

end Tlsn.Mpc
