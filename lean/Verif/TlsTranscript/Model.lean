import Verif.Tls.Frame
import Verif.Tls.Handshake
import Verif.Attestation.Model
import Verif.RecordLayer.Model

/-!
# Model of crates/core/src/transcript/tls.rs and crates/core/src/transcript/tls/builder.rs

SHA-256, the check of DNS names and the curve found in a certificate are parameters.  A digest context is the bytes it has
been given.
-/

namespace Tlsn

/-- crates/core/src/transcript/tls.rs:271-280 `ErrorRepr`, without the messages. -/
inductive TtError where
  | parse
  | missing
  | incomplete (d : Direction) (seq : Nat)
  | validation
  deriving DecidableEq, Repr

/-- crates/core/src/transcript/tls/builder.rs:526-549: the curves that are told apart, by their object identifiers. -/
inductive EcCurve where
  | p256
  | p384
  | other
  deriving DecidableEq, Repr

/-- External functions: `DnsName` validation, SHA-256, and crates/core/src/transcript/tls/builder.rs:565-581 `extract_ec_curve_oid` for an end-entity
certificate (`none` is any of its errors). -/
structure TtEnv where
  dnsOk : Bytes → Bool
  sha256 : Bytes → Bytes
  curve : Bytes → Option EcCurve

/-- crates/core/src/connection.rs:193-199 `ServerSignature`. -/
structure ServerSignature where
  alg : SignatureAlgorithm
  sig : Bytes
  deriving DecidableEq, Repr

/-- crates/core/src/connection.rs:261-283 `CertBinding`, which has the single variant `V1_2`. -/
structure CertBinding where
  clientRandom : Vector Byte 32
  serverRandom : Vector Byte 32
  serverEphemeralKey : ServerEphemKey
  deriving DecidableEq

/-- crates/core/src/transcript/tls/builder.rs:223-229 `SfHashInput`. -/
structure SfHashInput where
  sentHs : Bytes
  recvHs : Bytes
  sentChEnd : Nat
  recvShdEnd : Nat
  deriving DecidableEq, Repr

/-- crates/core/src/transcript/tls.rs:25-36 `TlsTranscript`. -/
structure TlsTranscript where
  time : Nat
  version : TlsVersion
  serverSignature : Option ServerSignature
  serverCertChain : Option (List Bytes)
  certificateBinding : CertBinding
  sent : List Record
  recv : List Record
  cfHash : Option Bytes
  sessionHash : Option Bytes
  sfHash : Option SfHashInput
  deriving DecidableEq

/-- crates/core/src/transcript/tls/builder.rs:27-39 `TlsTranscriptBuilder`; its setters (43-107) assign the fields. -/
structure TtBuilder where
  time : Option Nat := none
  version : Option TlsVersion := none
  tlsSent : Option Bytes := none
  tlsRecv : Option Bytes := none
  appSent : Option Bytes := none
  appRecv : Option Bytes := none
  recordsSent : Option (List Record) := none
  recordsRecv : Option (List Record) := none
  serverSignature : Option ServerSignature := none
  serverCertChain : Option (List Bytes) := none
  certificateBinding : Option CertBinding := none
  deriving DecidableEq

/-- `OpaqueMessage::read` with its errors put together, crates/core/src/transcript/tls/builder.rs:239-240. -/
def readOpaque : Rd OpaqueMessage := fun r =>
  match OpaqueMessage.read r with
  | .ok p => some p
  | _ => none

/-- Reading and writing of whole records. -/
def codecOpaque : Codec OpaqueMessage := ⟨OpaqueMessage.encode, readOpaque⟩

/-- Reading and writing of handshake messages in TLS 1.2, crates/core/src/transcript/tls/builder.rs:255. -/
def codecHandshake12 (dnsOk : Bytes → Bool) : Codec HandshakeMessage :=
  ⟨HandshakeMessage.encode, readHandshakeMessage dnsOk .tls12⟩

/-- crates/core/src/transcript/tls/builder.rs:235-244 `parse_raw_records`. -/
def parseRawRecords (bytes : Bytes) : Outcome TtError (List OpaqueMessage) :=
  match readItems codecOpaque bytes.length (Reader.init bytes) with
  | some l => .ok l
  | none => .err .parse

/-- crates/core/src/transcript/tls/builder.rs:329-340 `collect_handshake_bytes_pre_ccs`. -/
def collectHandshake : List OpaqueMessage → Bytes
  | [] => []
  | r :: rs =>
    if r.typ = .changeCipherSpec then []
    else if r.typ = .handshake then r.payload ++ collectHandshake rs
    else collectHandshake rs

/-- crates/core/src/transcript/tls/builder.rs:248-262 `parse_handshake_stream`. -/
def parseHandshakeStream (env : TtEnv) (records : List OpaqueMessage) :
    Outcome TtError (Bytes × List HandshakeMessage) :=
  let b := collectHandshake records
  match readItems (codecHandshake12 env.dnsOk) b.length (Reader.init b) with
  | some l => .ok (b, l)
  | none => .err .parse

/-- crates/core/src/transcript/tls/builder.rs:344-349 `HandshakeMsgInfo`: the type and the end of a message. -/
structure HandshakeMsgInfo where
  typ : UInt8
  stop : Nat
  deriving DecidableEq, Repr

/-- The loop of crates/core/src/transcript/tls/builder.rs:356-370; `fuel` bounds the number of messages, each of which has at least four bytes. -/
def scanLoop (b : Bytes) : Nat → Nat → Outcome TtError (List HandshakeMsgInfo)
  | 0, _ => .ok []
  | fuel + 1, pos =>
    if pos < b.length then
      if b.length - pos < 4 then .err .parse
      else
        let msgEnd := pos + 4 + beNat [0, b.getD (pos + 1) 0, b.getD (pos + 2) 0, b.getD (pos + 3) 0]
        if msgEnd > b.length then .err .parse
        else scanLoop b fuel msgEnd >>= fun rest => .ok (⟨b.getD pos 0, msgEnd⟩ :: rest)
    else .ok []

/-- crates/core/src/transcript/tls/builder.rs:353-372 `scan_handshake_messages`. -/
def scanHandshakeMessages (b : Bytes) : Outcome TtError (List HandshakeMsgInfo) := scanLoop b b.length 0

/-- The three slices of crates/core/src/transcript/tls/builder.rs:295-299 and 305-309; a slice out of bounds panics. -/
def hashInput (s₁ : Option Bytes) (s₂ : Option Bytes) (s₃ : Option Bytes) : Option Bytes :=
  match s₁, s₂, s₃ with
  | some a, some b, some c => some (a ++ (b ++ c))
  | _, _, _ => none

/-- crates/core/src/transcript/tls/builder.rs:290-323: the digests, given the ends of the messages. -/
def digestsAt (env : TtEnv) (sentHs recvHs : Bytes) (chEnd ckxEnd shdEnd : Nat) :
    Outcome TtError (Bytes × Bytes × SfHashInput) :=
  match hashInput (slice sentHs 0 chEnd) (some recvHs) (slice sentHs chEnd ckxEnd),
      hashInput (slice sentHs 0 chEnd) (slice recvHs 0 shdEnd) (slice sentHs chEnd sentHs.length) with
  | some session, some cf => .ok (env.sha256 cf, env.sha256 session, ⟨sentHs, recvHs, chEnd, shdEnd⟩)
  | _, _ => .panic

/-- crates/core/src/transcript/tls/builder.rs:265-324 `compute_handshake_hashes`. -/
def computeHandshakeHashes (env : TtEnv) (sentHs recvHs : Bytes) (sentMsgs recvMsgs : List HandshakeMsgInfo) :
    Outcome TtError (Bytes × Bytes × SfHashInput) :=
  match sentMsgs.head? with
  | none => .err .parse
  | some clientHello =>
    if clientHello.typ ≠ 0x01 then .err .parse
    else match sentMsgs.find? (·.typ == 0x10) with
    | none => .err .parse
    | some ckx =>
      if !recvMsgs.any (·.typ == 0x02) then .err .parse
      else match recvMsgs.find? (·.typ == 0x0e) with
      | none => .err .parse
      | some shd => digestsAt env sentHs recvHs clientHello.stop ckx.stop shd.stop

/-- crates/core/src/transcript/tls/builder.rs:375-394 `split_into_record`. -/
def splitIntoRecord (seq : Nat) (payload : Bytes) (typ : ContentType) : Outcome TtError Record :=
  if payload.length < 8 + 16 then .err .parse
  else .ok ⟨seq, typ, none, payload.take 8, (payload.take (payload.length - 16)).drop 8,
    some (payload.drop (payload.length - 16))⟩

/-- An option or a parse error. -/
def orParse {α : Type} : Option α → Outcome TtError α
  | some a => .ok a
  | none => .err .parse

/-- `Random([u8; 32])`: the bytes that were read as an array (`codecRandom` has read 32 of them). -/
def toRandom (b : Bytes) : Vector Byte 32 := Vector.ofFn fun i => b.getD i.val 0

/-- crates/core/src/connection.rs:21-31 `TlsVersion::try_from`. -/
def TlsVersion.ofProtocol : ProtocolVersion → Option TlsVersion
  | .tls12 => some .v12
  | .tls13 => some .v13
  | _ => none

/-- The patterns of crates/core/src/transcript/tls/builder.rs:427-430, 444-447, 458-461 and 476-479. -/
def HandshakeMessage.asServerHello (m : HandshakeMessage) : Option ServerHello :=
  match m.payload with
  | .serverHello h => some h
  | _ => none

@[inherit_doc HandshakeMessage.asServerHello]
def HandshakeMessage.asClientHello (m : HandshakeMessage) : Option ClientHello :=
  match m.payload with
  | .clientHello h => some h
  | _ => none

@[inherit_doc HandshakeMessage.asServerHello]
def HandshakeMessage.asCertificate (m : HandshakeMessage) : Option (List Bytes) :=
  match m.payload with
  | .certificate l => some l
  | _ => none

@[inherit_doc HandshakeMessage.asServerHello]
def HandshakeMessage.asServerKeyExchange (m : HandshakeMessage) : Option Bytes :=
  match m.payload with
  | .serverKeyExchange p => some p
  | _ => none

/-- crates/core/src/transcript/tls/builder.rs:422-437 `extract_server_hello_data`. -/
def extractServerHelloData (recvHs : List HandshakeMessage) : Outcome TtError (TlsVersion × Vector Byte 32) :=
  orParse (recvHs.findSome? (·.asServerHello)) >>= fun sh =>
  orParse (TlsVersion.ofProtocol sh.legacyVersion) >>= fun version =>
  .ok (version, toRandom sh.random)

/-- crates/core/src/transcript/tls/builder.rs:439-451 `extract_client_random`. -/
def extractClientRandom (sentHs : List HandshakeMessage) : Outcome TtError (Vector Byte 32) :=
  orParse (sentHs.findSome? (·.asClientHello)) >>= fun ch => .ok (toRandom ch.random)

/-- crates/core/src/transcript/tls/builder.rs:453-468 `extract_certs`. -/
def extractCerts (recvHs : List HandshakeMessage) : Outcome TtError (List Bytes) :=
  orParse (recvHs.findSome? (·.asCertificate))

/-- crates/core/src/transcript/tls/builder.rs:565-581 `extract_ec_curve_oid`. -/
def extractCurve (env : TtEnv) (certs : List Bytes) : Outcome TtError EcCurve :=
  match certs.head? with
  | none => .err .parse
  | some c => orParse (env.curve c)

/-- crates/core/src/transcript/tls/builder.rs:528-536 and 543-551: the algorithm by the curve. -/
def byCurve (p256 p384 : SignatureAlgorithm) : EcCurve → Outcome TtError SignatureAlgorithm
  | .p256 => .ok p256
  | .p384 => .ok p384
  | .other => .err .parse

/-- crates/core/src/transcript/tls/builder.rs:510-562 `map_signature_scheme`; the numbers of the schemes are in
crates/tls-core/src/msgs/enums.rs:786-802. -/
def mapSignatureScheme (env : TtEnv) (scheme : UInt16) (certs : List Bytes) : Outcome TtError SignatureAlgorithm :=
  if scheme = 0x0401 then .ok .rsaPkcs1Sha256
  else if scheme = 0x0501 then .ok .rsaPkcs1Sha384
  else if scheme = 0x0601 then .ok .rsaPkcs1Sha512
  else if scheme = 0x0804 then .ok .rsaPssSha256
  else if scheme = 0x0805 then .ok .rsaPssSha384
  else if scheme = 0x0806 then .ok .rsaPssSha512
  else if scheme = 0x0807 then .ok .ed25519
  else if scheme = 0x0403 then extractCurve env certs >>= byCurve .ecdsaP256Sha256 .ecdsaP384Sha256
  else if scheme = 0x0503 then extractCurve env certs >>= byCurve .ecdsaP256Sha384 .ecdsaP384Sha384
  else .err .parse

/-- crates/core/src/transcript/tls/builder.rs:470-504 `extract_server_key_exchange`. -/
def extractServerKeyExchange (env : TtEnv) (recvHs : List HandshakeMessage) (certs : List Bytes) :
    Outcome TtError (ServerEphemKey × ServerSignature) :=
  orParse (recvHs.findSome? (·.asServerKeyExchange)) >>= fun ske =>
  orParse (unwrapEcdhe ske) >>= fun ecdhe =>
  if ecdhe.namedGroup ≠ 0x0017 then .err .parse
  else mapSignatureScheme env ecdhe.dss.scheme certs >>= fun alg =>
  .ok (⟨ecdhe.publicKey⟩, ⟨alg, ecdhe.dss.sig⟩)

/-- crates/core/src/transcript/tls/builder.rs:397-419 `extract_handshake`. -/
def extractHandshake (env : TtEnv) (sentHs recvHs : List HandshakeMessage) :
    Outcome TtError (TlsVersion × HandshakeData) :=
  extractServerHelloData recvHs >>= fun vr =>
  extractClientRandom sentHs >>= fun clientRandom =>
  extractCerts recvHs >>= fun certs =>
  extractServerKeyExchange env recvHs certs >>= fun ks =>
  .ok (vr.1, ⟨certs, ks.2.alg, ks.2.sig, clientRandom, vr.2, ks.1⟩)

/-- crates/core/src/transcript/tls/builder.rs:207-219: only fields that were not set are filled in. -/
def TtBuilder.fill (b : TtBuilder) (version : TlsVersion) (d : HandshakeData) : TtBuilder :=
  { b with
    version := b.version.or (some version)
    serverSignature := b.serverSignature.or (some ⟨d.sigAlg, d.sig⟩)
    serverCertChain := b.serverCertChain.or (some d.certs)
    certificateBinding := b.certificateBinding.or (some ⟨d.clientRandom, d.serverRandom, d.serverEphemeralKey⟩) }

/-- crates/core/src/transcript/tls/builder.rs:190-221 `parse_handshake_components`. -/
def TtBuilder.parseHandshakeComponents (env : TtEnv) (b : TtBuilder) (sent recv : List OpaqueMessage) :
    Outcome TtError (TtBuilder × Bytes × Bytes × SfHashInput) :=
  parseHandshakeStream env sent >>= fun s =>
  parseHandshakeStream env recv >>= fun r =>
  extractHandshake env s.2 r.2 >>= fun vh =>
  scanHandshakeMessages s.1 >>= fun sentMsgs =>
  scanHandshakeMessages r.1 >>= fun recvMsgs =>
  computeHandshakeHashes env s.1 r.1 sentMsgs recvMsgs >>= fun hashes =>
  .ok (b.fill vh.1 vh.2, hashes)

/-- The pattern of crates/core/src/transcript/tls/builder.rs:604. -/
def HandshakeMessage.isFinished (m : HandshakeMessage) : Bool :=
  match m.payload with
  | .finished _ => true
  | _ => false

/-- crates/core/src/transcript/tls/builder.rs:583-610 `validate_finished_record`. -/
def validateFinishedRecord (env : TtEnv) (r : Record) : Outcome TtError Unit :=
  if r.typ ≠ .handshake then .err .validation
  else if r.seq ≠ 0 then .err .validation
  else match r.plaintext with
  | none => .ok ()
  | some payload =>
    match readHandshakeMessage env.dnsOk .tls12 (Reader.init payload) with
    | none => .err .validation
    | some (m, _) => if m.isFinished then .ok () else .err .validation

/-- crates/core/src/transcript/tls/builder.rs:612-622 `validate_seq`. -/
def validateSeq : List Record → Outcome TtError Unit
  | a :: b :: rest => if b.seq ≤ a.seq then .err .validation else validateSeq (b :: rest)
  | _ => .ok ()

/-- crates/core/src/transcript/tls/builder.rs:667-680: the plaintext of a record, and how much application data has been used. -/
def addPlaintext (app : Option Bytes) (consumed : Nat) (r : Record) : Outcome TtError (Record × Nat) :=
  match app with
  | none => .ok (r, consumed)
  | some app =>
    if r.typ = .applicationData then
      if consumed > app.length then .panic
      else if (app.drop consumed).length ≥ r.ciphertext.length then
        .ok ({ r with plaintext := some ((app.drop consumed).take r.ciphertext.length) }, consumed + r.ciphertext.length)
      else .err .parse
    else .ok (r, consumed)

/-- The loop of crates/core/src/transcript/tls/builder.rs:664-682. -/
def parseRest (app : Option Bytes) : Nat → Nat → List OpaqueMessage → Outcome TtError (List Record)
  | _, _, [] => .ok []
  | seq, consumed, m :: ms =>
    splitIntoRecord seq m.payload m.typ >>= fun r =>
    addPlaintext app consumed r >>= fun p =>
    parseRest app (seq + 1) p.2 ms >>= fun rs =>
    .ok (p.1 :: rs)

/-- crates/core/src/transcript/tls/builder.rs:625-685 `parse_records`. -/
def parseRecords (records : List OpaqueMessage) (app : Option Bytes) : Outcome TtError (List Record) :=
  match records.findIdx? (·.typ == .changeCipherSpec) with
  | none => .err .missing
  | some ccs =>
    match records[ccs + 1]? with
    | none => .err .parse
    | some finished =>
      if finished.payload.length < 8 + 16 then .err .parse
      else if finished.typ ≠ .handshake then .err .validation
      else
        parseRest app 1 0 (records.drop (ccs + 2)) >>= fun rest =>
        .ok (⟨0, .handshake, none, finished.payload.take 8,
          (finished.payload.take (finished.payload.length - 16)).drop 8,
          some (finished.payload.drop (finished.payload.length - 16))⟩ :: rest)

/-- crates/core/src/transcript/tls/builder.rs:117-127: raw records, if there are any. -/
def parseRawOpt : Option Bytes → Outcome TtError (Option (List OpaqueMessage))
  | none => .ok none
  | some b => parseRawRecords b >>= fun l => .ok (some l)

/-- crates/core/src/transcript/tls/builder.rs:129-137. -/
def TtBuilder.hashes (env : TtEnv) (b : TtBuilder) :
    Option (List OpaqueMessage) → Option (List OpaqueMessage) →
      Outcome TtError (TtBuilder × Option (Bytes × Bytes × SfHashInput))
  | some s, some r => b.parseHandshakeComponents env s r >>= fun p => .ok (p.1, some p.2)
  | _, _ => .ok (b, none)

/-- crates/core/src/transcript/tls/builder.rs:139-149 and 152-162. -/
def directionRecords (env : TtEnv) (given : Option (List Record)) (raw : Option (List OpaqueMessage)) (app : Option Bytes) :
    Outcome TtError (List Record) :=
  match given with
  | some [] => .panic
  | some (f :: rs) => validateFinishedRecord env f >>= fun _ => .ok (f :: rs)
  | none =>
    match raw with
    | some raw => parseRecords raw app
    | none => .err .missing

/-- An option or the error for a missing field. -/
def orMissing {α : Type} : Option α → Outcome TtError α
  | some a => .ok a
  | none => .err .missing

/-- crates/core/src/transcript/tls/builder.rs:112-187 `build`. -/
def TtBuilder.build (env : TtEnv) (b : TtBuilder) : Outcome TtError TlsTranscript :=
  orMissing b.time >>= fun time =>
  parseRawOpt b.tlsSent >>= fun sentRaw =>
  parseRawOpt b.tlsRecv >>= fun recvRaw =>
  b.hashes env sentRaw recvRaw >>= fun bh =>
  directionRecords env bh.1.recordsSent sentRaw bh.1.appSent >>= fun sent =>
  validateSeq sent >>= fun _ =>
  directionRecords env bh.1.recordsRecv recvRaw bh.1.appRecv >>= fun recv =>
  validateSeq recv >>= fun _ =>
  orMissing bh.1.version >>= fun version =>
  orMissing bh.1.certificateBinding >>= fun binding =>
  .ok {
    time, version, sent, recv
    serverSignature := bh.1.serverSignature
    serverCertChain := bh.1.serverCertChain
    certificateBinding := binding
    cfHash := bh.2.map (·.1)
    sessionHash := bh.2.map (·.2.1)
    sfHash := bh.2.map (·.2.2) }

namespace TlsTranscript

/-- crates/core/src/transcript/tls.rs:82-86 `client_finished`. -/
def clientFinished (t : TlsTranscript) : Option Record := t.sent.head?

/-- crates/core/src/transcript/tls.rs:96-100 `server_finished`. -/
def serverFinished (t : TlsTranscript) : Option Record := t.recv.head?

/-- `plain.get(4..)`, crates/core/src/transcript/tls.rs:91, 106. -/
def dropHeader (plain : Bytes) : Option Bytes := if 4 ≤ plain.length then some (plain.drop 4) else none

/-- crates/core/src/transcript/tls.rs:89-94 `cf_vd`; the outer `none` is the panic of `client_finished`. -/
def cfVd (t : TlsTranscript) : Option (Option Bytes) :=
  t.clientFinished.map fun r => r.plaintext.bind dropHeader

/-- crates/core/src/transcript/tls.rs:104-109 `sf_vd`. -/
def sfVd (t : TlsTranscript) : Option (Option Bytes) :=
  t.serverFinished.map fun r => r.plaintext.bind dropHeader

/-- crates/core/src/transcript/tls.rs:127-147: the digest for the given `cf_vd`, or a panic if a slice is out of bounds. -/
def sfHashOf (env : TtEnv) (i : SfHashInput) (cfVd : Bytes) : Option Bytes :=
  match slice i.sentHs 0 i.sentChEnd, slice i.recvHs 0 i.recvShdEnd, slice i.sentHs i.sentChEnd i.sentHs.length,
      slice i.recvHs i.recvShdEnd i.recvHs.length with
  | some a, some b, some c, some d => some (env.sha256 (a ++ (b ++ (c ++ ([0x14, 0x00, 0x00, 0x0c] ++ (cfVd ++ d))))))
  | _, _, _, _ => none

/-- crates/core/src/transcript/tls.rs:126-148 `sf_hash`; the outer `none` is a panic. -/
def sfHashWith (env : TtEnv) (t : TlsTranscript) (cfVd : Bytes) : Option (Option Bytes) :=
  match t.sfHash with
  | none => some none
  | some i => (sfHashOf env i cfVd).map some

/-- The loops of crates/core/src/transcript/tls.rs:155-167 and 169-181. -/
def collectApp (d : Direction) : List Record → Outcome TtError Bytes
  | [] => .ok []
  | r :: rs =>
    if r.typ = .applicationData then
      match r.plaintext with
      | none => .err (.incomplete d r.seq)
      | some p => collectApp d rs >>= fun rest => .ok (p ++ rest)
    else collectApp d rs

/-- crates/core/src/transcript/tls.rs:151-184 `to_transcript`. -/
def toTranscript (t : TlsTranscript) : Outcome TtError Transcript :=
  collectApp .sent t.sent >>= fun s =>
  collectApp .received t.recv >>= fun r =>
  .ok ⟨s, r⟩

end TlsTranscript

end Tlsn
