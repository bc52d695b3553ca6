import Verif.TlsTranscript.Model
import Verif.Tls.FrameSpec
import Verif.Tls.HandshakeSpec

/-! # What the handshake of TLS 1.2 hashes, and what the records after it are

A handshake message is a type and a body; `hsBytes` are its bytes on the wire.
-/

namespace Tlsn

/-- A byte string is exactly a sequence of legal records. -/
structure RecordStream (bytes : Bytes) (records : List OpaqueMessage) : Prop where
  bytes_eq : bytes = records.flatMap frameBytes
  legal : ∀ m ∈ records, LegalHeader m.typ.getU8 m.version.getU16.toNat m.payload.length ∧
    ContentType.ofU8 m.typ.getU8 = m.typ ∧ ProtocolVersion.ofU16 m.version.getU16 = m.version

/-- The handshake messages that were sent in the clear, that is, before the change of cipher specs: the contents of the
handshake records, one after the other. -/
def clearHandshake (records : List OpaqueMessage) : Bytes :=
  ((records.takeWhile (·.typ ≠ .changeCipherSpec)).filter (·.typ = .handshake)).flatMap (·.payload)

/-- The records after the first change of cipher specs. -/
def protectedRecords (records : List OpaqueMessage) : List OpaqueMessage :=
  (records.dropWhile (·.typ ≠ .changeCipherSpec)).drop 1

/-- The messages of a handshake of TLS 1.2 (RFC 5246 section 7.3) before the change of cipher specs:

    ClientHello               -->
                              <--    serverFirst ... ServerHelloDone
    beforeKx ... ClientKeyExchange
    afterKx, Finished         -->
                              <--    serverLast, Finished
-/
structure Flights where
  clientHello : Bytes
  serverFirst : List (Byte × Bytes)
  beforeKx : List (Byte × Bytes)
  clientKx : Bytes
  afterKx : List (Byte × Bytes)
  serverLast : List (Byte × Bytes)
  deriving DecidableEq, Repr

namespace Flights

/-- What the client sends. -/
def client (f : Flights) : List (Byte × Bytes) :=
  (0x01, f.clientHello) :: (f.beforeKx ++ (0x10, f.clientKx) :: f.afterKx)

/-- What the server sends. -/
def server (f : Flights) : List (Byte × Bytes) := f.serverFirst ++ (0x0e, []) :: f.serverLast

/-- The messages up to and including the client key exchange, in the order in which they were sent: what the session
hash covers (RFC 7627 section 3). -/
def session (f : Flights) : List (Byte × Bytes) :=
  [(0x01, f.clientHello)] ++ f.serverFirst ++ [(0x0e, [])] ++ f.beforeKx ++ [(0x10, f.clientKx)]

/-- The messages that the client's Finished covers: everything before it (RFC 5246 section 7.4.9). -/
def clientFinished (f : Flights) : List (Byte × Bytes) := f.session ++ f.afterKx

/-- The messages that the server's Finished covers: everything before it, including the client's Finished. -/
def serverFinished (f : Flights) (verifyData : Bytes) : List (Byte × Bytes) :=
  f.clientFinished ++ [(0x14, verifyData)] ++ f.serverLast

/-- The marked messages are the first of their kind, there is a server hello, and every body fits its length. -/
structure Valid (f : Flights) : Prop where
  kx : ∀ m ∈ f.beforeKx, m.1 ≠ 0x10
  done : ∀ m ∈ f.serverFirst, m.1 ≠ 0x0e
  hello : ∃ m ∈ f.server, m.1 = 0x02
  fits : ∀ m ∈ f.client ++ f.server, m.2.length < 2 ^ 24

end Flights

/-- The bytes of some messages. -/
def messageBytes (l : List (Byte × Bytes)) : Bytes := l.flatMap hsBytes

/-- The handshake in the two streams of records consists of these flights. -/
structure IsHandshake (sent recv : List OpaqueMessage) (f : Flights) : Prop where
  sent_eq : clearHandshake sent = messageBytes f.client
  recv_eq : clearHandshake recv = messageBytes f.server
  valid : f.Valid

/-- The message is the first one of the flight with this type. -/
def FirstOf (l : List (Byte × Bytes)) (typ : Byte) (body : Bytes) : Prop :=
  ∃ before after, l = before ++ (typ, body) :: after ∧ ∀ m ∈ before, m.1 ≠ typ

/-- A record on the wire, encrypted with AES-GCM: eight bytes of nonce, the ciphertext and sixteen bytes of tag. -/
structure Encrypts (m : OpaqueMessage) (seq : Nat) (r : Record) : Prop where
  seq : r.seq = seq
  typ : r.typ = m.typ
  nonce : r.nonce.length = 8
  tag : ∃ tag, r.tag = some tag ∧ tag.length = 16 ∧ m.payload = r.nonce ++ r.ciphertext ++ tag

/-- All application data records have a plaintext, and `data` is these plaintexts one after the other. -/
def AppData (records : List Record) (data : Bytes) : Prop :=
  ∃ ps : List Bytes, (records.filter (·.typ = .applicationData)).map (·.plaintext) = ps.map some ∧ data = ps.flatten

/-- How much application data the records hold. -/
def appLength (records : List Record) : Nat :=
  ((records.filter (·.typ = .applicationData)).map (·.ciphertext.length)).sum

/-- A Finished message with anything behind it. -/
def IsFinishedMessage (plaintext : Bytes) : Prop :=
  ∃ verifyData more, verifyData.length < 2 ^ 24 ∧ plaintext = hsBytes (0x14, verifyData) ++ more

/-- What the documentation of `TlsTranscript` says about the records of one direction. -/
structure RecordsOk (records : List Record) : Prop where
  first : ∃ f rest, records = f :: rest ∧ f.typ = .handshake ∧ f.seq = 0 ∧
    ∀ p, f.plaintext = some p → IsFinishedMessage p
  ordered : records.Pairwise fun a b => a.seq < b.seq

/-- The records of one direction of a connection, given the records on the wire after the change of cipher specs, and the
application data if it is known. -/
structure RecordsOfWire (wire : List OpaqueMessage) (app : Option Bytes) (records : List Record) : Prop where
  /-- The first record is a handshake record. -/
  first : ∃ m rest, wire = m :: rest ∧ m.typ = .handshake
  len : records.length = wire.length
  /-- They are the records on the wire, numbered from zero. -/
  enc : ∀ (i : Nat) (m : OpaqueMessage) (r : Record), wire[i]? = some m → records[i]? = some r → Encrypts m i r
  other : ∀ r ∈ records, r.typ ≠ .applicationData → r.plaintext = none
  unknown : app = none → ∀ r ∈ records, r.plaintext = none
  /-- There is enough application data, and each record holds the part of it behind the records before. -/
  known : ∀ a, app = some a → appLength records ≤ a.length ∧
    ∀ (i : Nat) (r : Record), records[i]? = some r → r.typ = .applicationData →
      r.plaintext = some ((a.drop (appLength (records.take i))).take r.ciphertext.length)

end Tlsn
