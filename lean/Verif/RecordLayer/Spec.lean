import Verif.RecordLayer.Model

/-! # Specification vocabulary for the record layer

A history is a list of calls with their results.  From the history alone one reads off which records were
accepted for sending and receiving, in which order and with which sequence numbers, and which records came
out. -/

namespace Tlsn

/-- A list of calls with their results. -/
abbrev RlHistory := List (RlCall × RlResult)

/-- The history of a run. -/
def RecordLayer.history (k : SessionFns) (peer : Nat → Bytes) (r : RecordLayer) (calls : List RlCall) :
    RlHistory := calls.zip (r.run k peer calls).2

/-- A record accepted for sending. -/
structure Sending where
  seq : Nat
  typ : ContentType
  version : ProtocolVersion
  len : Nat
  plaintext : Option Bytes
  deriving DecidableEq, Repr

/-- A record accepted for decryption. -/
structure Receiving where
  seq : Nat
  typ : ContentType
  version : ProtocolVersion
  nonce : Bytes
  ciphertext : Bytes
  tag : Bytes
  deriving DecidableEq, Repr

/-- The records accepted for sending, numbered from `n`.  A push that fails because of its plaintext uses
up a number. -/
def accepted (n : Nat) : RlHistory → List Sending
  | [] => []
  | (.pushEncrypt t v l p, .done) :: h => ⟨n, t, v, l, p⟩ :: accepted (n + 1) h
  | (.pushEncrypt _ _ _ _, .failed .plaintext) :: h => accepted (n + 1) h
  | _ :: h => accepted n h

/-- The records accepted for decryption, numbered from `n`. -/
def incoming (n : Nat) : RlHistory → List Receiving
  | [] => []
  | (.pushDecrypt t v nc ct tg, .done) :: h => ⟨n, t, v, nc, ct, tg⟩ :: incoming (n + 1) h
  | _ :: h => incoming n h

/-- The records handed out for sending. -/
def released (h : RlHistory) : List EncryptedRecord :=
  h.filterMap fun x => match x.2 with
    | .encrypted r => r
    | _ => none

/-- The decrypted records handed out. -/
def delivered (h : RlHistory) : List PlainRecord :=
  h.filterMap fun x => match x.2 with
    | .decrypted r => r
    | _ => none

/-- The nonce of a sent record is its number in eight bytes, big-endian. -/
def Sending.nonce (s : Sending) : Bytes := beBytes 8 s.seq

/-- The plaintext of a sent record; `peer` for a party that does not know it. -/
def Sending.content (peer : Nat → Bytes) (s : Sending) : Bytes :=
  s.plaintext.getD ((peer s.seq ++ List.replicate s.len 0).take s.len)

/-- AES-GCM encryption of a sent record. -/
def Sending.ciphertext (f : AeadFn) (peer : Nat → Bytes) (s : Sending) : Bytes :=
  xorBytes (s.content peer) (f.keystream s.nonce s.len)

/-- AES-GCM tag of a sent record; the follower does not learn it. -/
def Sending.tag (f : AeadFn) (peer : Nat → Bytes) (role : Role) (s : Sending) : Option Bytes :=
  if role = .leader then
    some (f.tag s.nonce (makeTls12Aad s.seq s.typ s.version s.len) (s.ciphertext f peer))
  else none

/-- What is sent for an accepted record. -/
def Sending.onWire (f : AeadFn) (peer : Nat → Bytes) (role : Role) (s : Sending) : EncryptedRecord :=
  ⟨s.typ, s.version, s.nonce, s.ciphertext f peer, s.tag f peer role⟩

/-- The transcript record of an accepted record. -/
def Sending.inTranscript (f : AeadFn) (peer : Nat → Bytes) (role : Role) (s : Sending) : Record :=
  ⟨s.seq, s.typ, s.plaintext, s.nonce, s.ciphertext f peer, s.tag f peer role⟩

/-- What a party learns of a received record: everything, except that the follower does not learn
application data. -/
def Receiving.plaintext (f : AeadFn) (role : Role) (s : Receiving) : Option Bytes :=
  if role = .leader ∨ s.typ ≠ .applicationData then
    some (xorBytes s.ciphertext (f.keystream s.nonce s.ciphertext.length))
  else none

/-- What is delivered for a received record. -/
def Receiving.plain (f : AeadFn) (role : Role) (s : Receiving) : PlainRecord :=
  ⟨s.typ, s.version, s.plaintext f role⟩

/-- The transcript record of a received record. -/
def Receiving.inTranscript (f : AeadFn) (role : Role) (s : Receiving) : Record :=
  ⟨s.seq, s.typ, s.plaintext f role, s.nonce, s.ciphertext, some s.tag⟩

/-- A received record whose tag is right under its sequence number. -/
def Receiving.Authentic (f : AeadFn) (s : Receiving) : Prop :=
  s.tag = f.tag s.nonce (makeTls12Aad s.seq s.typ s.version s.ciphertext.length) s.ciphertext

/-- A call that did not lose a record: no flush failed after it had started, no commit failed, and no push
was given a plaintext that does not fit. -/
def lossless : RlCall × RlResult → Bool
  | (.pushEncrypt .., .failed .plaintext) => false
  | (.flush .., .failed e) => decide (e = .lock ∨ e = .state)
  | (.commit .., .failed _) => false
  | (.commit .., .panicked) => false
  | _ => true

/-- The number of `push_encrypt` and of `push_decrypt` calls. -/
def pushes (calls : List RlCall) : Nat :=
  calls.countP fun c => match c with
    | .pushEncrypt .. => true
    | .pushDecrypt .. => true
    | _ => false

end Tlsn
