import Verif.Tls.Codec

/-!
# Model of crates/tls-core/src/msgs/handshake.rs

Line numbers refer to that file unless another one is named.  The enumerations other than `ContentType` and
`ProtocolVersion` are represented by the number they have on the wire, so a value such as `CipherSuite::Unknown(x)`
where `x` is the number of a known suite is not distinguished from the known suite; `read` never returns one.
`dnsOk` stands for `pki_types::DnsName::try_from(..).is_ok()`, which belongs to a dependency.
-/

namespace Tlsn

/-- `X::read(&mut sub)?` followed by the check that `sub` has nothing left. -/
def Rd.whole {α : Type} (f : Rd α) (bs : Bytes) : Option α :=
  match f (Reader.init bs) with
  | some (x, r) => if r.anyLeft then none else some x
  | none => none

/-- Two fields, one after the other. -/
def Codec.seq {α β : Type} (a : Codec α) (b : Codec β) : Codec (α × β) where
  encode x := a.encode x.1 ++ b.encode x.2
  read := do
    let x ← a.read
    let y ← b.read
    return (x, y)

/-- The fields of a structure. -/
def Codec.fields {α β : Type} (c : Codec α) (build : α → β) (parts : β → α) : Codec β where
  encode x := c.encode (parts x)
  read := do return build (← c.read)

/-- A codec whose `read` fails on some values. -/
def Codec.check {α : Type} (c : Codec α) (ok : α → Bool) : Codec α where
  encode := c.encode
  read := do
    let x ← c.read
    Rd.lift (if ok x then some x else none)

/-- crates/tls-core/src/msgs/handshake.rs:24-38 `declare_u8_vec!`. -/
def Codec.vecU8 {α : Type} (c : Codec α) : Codec (List α) := ⟨encodeVecU8 c, readVecU8 c⟩

/-- crates/tls-core/src/msgs/handshake.rs:40-54 `declare_u16_vec!`. -/
def Codec.vecU16 {α : Type} (c : Codec α) : Codec (List α) := ⟨encodeVecU16 c, readVecU16 c⟩

/-- `encode_vec_u24` and `read_vec_u24_limited`, crates/tls-core/src/msgs/codec.rs:202-215, 241-256. -/
def Codec.vecU24 {α : Type} (c : Codec α) (maxBytes : Nat) : Codec (List α) :=
  ⟨encodeVecU24 c, readVecU24Limited c maxBytes⟩

/-- crates/tls-core/src/msgs/handshake.rs:70-82 `Codec for Random`; a random is a list of 32 bytes. -/
def codecRandom : Codec Bytes where
  encode v := v
  read := Rd.take 32

/-- crates/tls-core/src/msgs/handshake.rs:63-66 `HELLO_RETRY_REQUEST_RANDOM`. -/
def helloRetryRandom : Bytes :=
  [0xcf, 0x21, 0xad, 0x74, 0xe5, 0x9a, 0x61, 0x11, 0xbe, 0x1d, 0x8c, 0x02, 0x1e, 0x65, 0xb8, 0x91,
   0xc2, 0xa2, 0x11, 0x16, 0x7a, 0xbb, 0x8c, 0x5e, 0x07, 0x9e, 0x09, 0xe2, 0xc8, 0xa8, 0x33, 0x9c]

/-- crates/tls-core/src/msgs/handshake.rs:133-152 `Codec for SessionID`; a session id is the list of its bytes (the Rust type has an array of
32 bytes of
which the first `len` count). -/
def codecSessionId : Codec Bytes where
  encode v := codecU8.encode (UInt8.ofNat v.length) ++ v
  read := do
    let len ← codecU8.read
    if len.toNat > 32 then Rd.lift none else Rd.take len.toNat

/-- crates/tls-core/src/msgs/handshake.rs:252-256 `ServerNamePayload`; the parsed DNS name is determined by the bytes and is not kept. -/
inductive ServerNamePayload where
  | hostName (raw : Bytes)
  | unknown (payload : Bytes)
  deriving DecidableEq, Repr

/-- crates/tls-core/src/msgs/handshake.rs:291-294 `ServerName`. -/
structure SniName where
  typ : UInt8
  payload : ServerNamePayload
  deriving DecidableEq, Repr

/-- crates/tls-core/src/msgs/handshake.rs:267-280 `read_hostname`. -/
def readHostname (dnsOk : Bytes → Bool) : Rd ServerNamePayload := do
  let raw ← codecPayloadU16.read
  Rd.lift (if dnsOk raw then some (.hostName raw) else none)

/-- crates/tls-core/src/msgs/handshake.rs:307: any other type takes the rest. -/
def readUnknownName : Rd ServerNamePayload := do return .unknown (← Rd.rest)

/-- crates/tls-core/src/msgs/handshake.rs:305-308: the `match` on the type. -/
def readServerNamePayload (dnsOk : Bytes → Bool) (typ : UInt8) : Rd ServerNamePayload :=
  if typ = 0 then readHostname dnsOk else readUnknownName

/-- crates/tls-core/src/msgs/handshake.rs:282-287 `ServerNamePayload::encode`. -/
def ServerNamePayload.encode : ServerNamePayload → Bytes
  | .hostName raw => codecPayloadU16.encode raw
  | .unknown p => p

/-- crates/tls-core/src/msgs/handshake.rs:296-312 `Codec for ServerName`. -/
def codecServerName (dnsOk : Bytes → Bool) : Codec SniName where
  encode n := codecU8.encode n.typ ++ n.payload.encode
  read := do
    let typ ← codecU8.read
    let payload ← readServerNamePayload dnsOk typ
    return ⟨typ, payload⟩

/-- crates/tls-core/src/msgs/handshake.rs:385-388 `KeyShareEntry`. -/
structure KeyShareEntry where
  group : UInt16
  payload : Bytes
  deriving DecidableEq, Repr

/-- crates/tls-core/src/msgs/handshake.rs:399-411 `Codec for KeyShareEntry`. -/
def codecKeyShareEntry : Codec KeyShareEntry :=
  (codecU16.seq codecPayloadU16).fields (fun p => ⟨p.1, p.2⟩) fun e => (e.group, e.payload)

/-- crates/tls-core/src/msgs/handshake.rs:422-425 `PresharedKeyIdentity`. -/
structure PresharedKeyIdentity where
  identity : Bytes
  obfuscatedTicketAge : UInt32
  deriving DecidableEq, Repr

/-- crates/tls-core/src/msgs/handshake.rs:436-448 `Codec for PresharedKeyIdentity`. -/
def codecPskIdentity : Codec PresharedKeyIdentity :=
  (codecPayloadU16.seq codecU32).fields (fun p => ⟨p.1, p.2⟩) fun e => (e.identity, e.obfuscatedTicketAge)

/-- crates/tls-core/src/msgs/handshake.rs:455-458 `PresharedKeyOffer`. -/
structure PresharedKeyOffer where
  identities : List PresharedKeyIdentity
  binders : List Bytes
  deriving DecidableEq, Repr

/-- crates/tls-core/src/msgs/handshake.rs:470-482 `Codec for PresharedKeyOffer`. -/
def codecPskOffer : Codec PresharedKeyOffer :=
  (codecPskIdentity.vecU16.seq codecPayloadU8.vecU16).fields (fun p => ⟨p.1, p.2⟩) fun e => (e.identities, e.binders)

/-- crates/tls-core/src/msgs/handshake.rs:488-491, 509-512 `CertificateStatusRequest` with `OCSPCertificateStatusRequest`. -/
inductive CertificateStatusRequest where
  | ocsp (responderIds : List Bytes) (extensions : Bytes)
  | unknown (typ : UInt8) (payload : Bytes)
  deriving DecidableEq, Repr

/-- crates/tls-core/src/msgs/handshake.rs:494-498, 515-523 `encode`. -/
def CertificateStatusRequest.encode : CertificateStatusRequest → Bytes
  | .ocsp ids ext => codecU8.encode 1 ++ (codecPayloadU16.vecU16.encode ids ++ codecPayloadU16.encode ext)
  | .unknown typ p => codecU8.encode typ ++ p

/-- crates/tls-core/src/msgs/handshake.rs:500-505 `OCSPCertificateStatusRequest::read`. -/
def readOcspRequest : Rd CertificateStatusRequest := do
  let ids ← codecPayloadU16.vecU16.read
  let ext ← codecPayloadU16.read
  return .ocsp ids ext

/-- crates/tls-core/src/msgs/handshake.rs:533-536. -/
def readUnknownStatusRequest (typ : UInt8) : Rd CertificateStatusRequest := do return .unknown typ (← Rd.rest)

/-- crates/tls-core/src/msgs/handshake.rs:525-538 `CertificateStatusRequest::read`. -/
def readStatusRequest : Rd CertificateStatusRequest := do
  let typ ← codecU8.read
  if typ = 1 then readOcspRequest else readUnknownStatusRequest typ

/-! ### Extensions

Numbers of extension types: crates/tls-core/src/msgs/enums.rs:227-266. -/

/-- An extension on the wire: the type, the length as `u16` and the body; the body is parsed by `parse`
(crates/tls-core/src/msgs/handshake.rs:610-611, 637-638 and 641-644, and the same lines of the other kinds of extensions). -/
def codecExtension {ε : Type} (typeOf : ε → UInt16) (bodyOf : ε → Bytes) (parse : UInt16 → Bytes → Option ε) :
    Codec ε where
  encode e := codecU16.encode (typeOf e) ++ (codecU16.encode (UInt16.ofNat (bodyOf e).length) ++ bodyOf e)
  read := do
    let typ ← codecU16.read
    let len ← codecU16.read
    let body ← readBody len.toNat
    Rd.lift (parse typ body)

/-- crates/tls-core/src/msgs/handshake.rs:563-582, 728-731 `ClientExtension` and `ClientSessionTicket`. -/
inductive ClientExtension where
  | ecPointFormats (l : List UInt8)
  | namedGroups (l : List UInt16)
  | signatureAlgorithms (l : List UInt16)
  | serverName (l : List SniName)
  | sessionTicketRequest
  | sessionTicketOffer (p : Bytes)
  | protocols (l : List Bytes)
  | supportedVersions (l : List ProtocolVersion)
  | keyShare (l : List KeyShareEntry)
  | presharedKeyModes (l : List UInt8)
  | presharedKey (o : PresharedKeyOffer)
  | cookie (p : Bytes)
  | extendedMasterSecretRequest
  | certificateStatusRequest (r : CertificateStatusRequest)
  | signedCertificateTimestampRequest
  | transportParameters (p : Bytes)
  | transportParametersDraft (p : Bytes)
  | earlyData
  | unknown (typ : UInt16) (p : Bytes)
  deriving DecidableEq, Repr

/-- crates/tls-core/src/msgs/handshake.rs:585-606 `ClientExtension::get_type`. -/
def ClientExtension.getType : ClientExtension → UInt16
  | .ecPointFormats _ => 0x000b
  | .namedGroups _ => 0x000a
  | .signatureAlgorithms _ => 0x000d
  | .serverName _ => 0x0000
  | .sessionTicketRequest => 0x0023
  | .sessionTicketOffer _ => 0x0023
  | .protocols _ => 0x0010
  | .supportedVersions _ => 0x002b
  | .keyShare _ => 0x0033
  | .presharedKeyModes _ => 0x002d
  | .presharedKey _ => 0x0029
  | .cookie _ => 0x002c
  | .extendedMasterSecretRequest => 0x0017
  | .certificateStatusRequest _ => 0x0005
  | .signedCertificateTimestampRequest => 0x0012
  | .transportParameters _ => 0x0039
  | .transportParametersDraft _ => 0xffa5
  | .earlyData => 0x002a
  | .unknown typ _ => typ

/-- crates/tls-core/src/msgs/handshake.rs:610-639: the bytes appended to `sub` by `ClientExtension::encode`. -/
def ClientExtension.body : ClientExtension → Bytes
  | .ecPointFormats l => codecU8.vecU8.encode l
  | .namedGroups l => codecU16.vecU16.encode l
  | .signatureAlgorithms l => codecU16.vecU16.encode l
  | .serverName l => (codecServerName fun _ => true).vecU16.encode l
  | .sessionTicketRequest => []
  | .extendedMasterSecretRequest => []
  | .signedCertificateTimestampRequest => []
  | .earlyData => []
  | .sessionTicketOffer p => p
  | .protocols l => codecPayloadU8.vecU16.encode l
  | .supportedVersions l => codecVersion.vecU8.encode l
  | .keyShare l => codecKeyShareEntry.vecU16.encode l
  | .presharedKeyModes l => codecU8.vecU8.encode l
  | .presharedKey o => codecPskOffer.encode o
  | .cookie p => codecPayloadU16.encode p
  | .certificateStatusRequest r => r.encode
  | .transportParameters p => p
  | .transportParametersDraft p => p
  | .unknown _ p => p

/-- crates/tls-core/src/msgs/handshake.rs:641-697: the `match` of `ClientExtension::read` and the check that nothing is left. -/
def ClientExtension.parse (dnsOk : Bytes → Bool) (typ : UInt16) (b : Bytes) : Option ClientExtension :=
  if typ = 0x000b then (codecU8.vecU8.read.whole b).map .ecPointFormats
  else if typ = 0x000a then (codecU16.vecU16.read.whole b).map .namedGroups
  else if typ = 0x000d then (codecU16.vecU16.read.whole b).map .signatureAlgorithms
  else if typ = 0x0000 then ((codecServerName dnsOk).vecU16.read.whole b).map .serverName
  else if typ = 0x0023 then (if b ≠ [] then some (.sessionTicketOffer b) else some .sessionTicketRequest)
  else if typ = 0x0010 then (codecPayloadU8.vecU16.read.whole b).map .protocols
  else if typ = 0x002b then (codecVersion.vecU8.read.whole b).map .supportedVersions
  else if typ = 0x0033 then (codecKeyShareEntry.vecU16.read.whole b).map .keyShare
  else if typ = 0x002d then (codecU8.vecU8.read.whole b).map .presharedKeyModes
  else if typ = 0x0029 then (codecPskOffer.read.whole b).map .presharedKey
  else if typ = 0x002c then (codecPayloadU16.read.whole b).map .cookie
  else if typ = 0x0017 ∧ b = [] then some .extendedMasterSecretRequest
  else if typ = 0x0005 then (readStatusRequest.whole b).map .certificateStatusRequest
  else if typ = 0x0012 ∧ b = [] then some .signedCertificateTimestampRequest
  else if typ = 0x0039 then some (.transportParameters b)
  else if typ = 0xffa5 then some (.transportParametersDraft b)
  else if typ = 0x002a ∧ b = [] then some .earlyData
  else some (.unknown typ b)

/-- crates/tls-core/src/msgs/handshake.rs:609-698 `Codec for ClientExtension`. -/
def codecClientExtension (dnsOk : Bytes → Bool) : Codec ClientExtension :=
  codecExtension ClientExtension.getType ClientExtension.body (ClientExtension.parse dnsOk)

/-- crates/tls-core/src/msgs/handshake.rs:734-750 `ServerExtension`. -/
inductive ServerExtension where
  | ecPointFormats (l : List UInt8)
  | serverNameAck
  | sessionTicketAck
  | renegotiationInfo (p : Bytes)
  | protocols (l : List Bytes)
  | keyShare (e : KeyShareEntry)
  | presharedKey (n : UInt16)
  | extendedMasterSecretAck
  | certificateStatusAck
  | signedCertificateTimestamp (l : List Bytes)
  | supportedVersions (v : ProtocolVersion)
  | transportParameters (p : Bytes)
  | transportParametersDraft (p : Bytes)
  | earlyData
  | unknown (typ : UInt16) (p : Bytes)
  deriving DecidableEq, Repr

/-- crates/tls-core/src/msgs/handshake.rs:753-771 `ServerExtension::get_type`. -/
def ServerExtension.getType : ServerExtension → UInt16
  | .ecPointFormats _ => 0x000b
  | .serverNameAck => 0x0000
  | .sessionTicketAck => 0x0023
  | .renegotiationInfo _ => 0xff01
  | .protocols _ => 0x0010
  | .keyShare _ => 0x0033
  | .presharedKey _ => 0x0029
  | .extendedMasterSecretAck => 0x0017
  | .certificateStatusAck => 0x0005
  | .signedCertificateTimestamp _ => 0x0012
  | .supportedVersions _ => 0x002b
  | .transportParameters _ => 0x0039
  | .transportParametersDraft _ => 0xffa5
  | .earlyData => 0x002a
  | .unknown typ _ => typ

/-- crates/tls-core/src/msgs/handshake.rs:775-800: the bytes appended to `sub` by `ServerExtension::encode`. -/
def ServerExtension.body : ServerExtension → Bytes
  | .ecPointFormats l => codecU8.vecU8.encode l
  | .serverNameAck => []
  | .sessionTicketAck => []
  | .extendedMasterSecretAck => []
  | .certificateStatusAck => []
  | .earlyData => []
  | .renegotiationInfo p => codecPayloadU8.encode p
  | .protocols l => codecPayloadU8.vecU16.encode l
  | .keyShare e => codecKeyShareEntry.encode e
  | .presharedKey n => codecU16.encode n
  | .signedCertificateTimestamp l => codecPayloadU16.vecU16.encode l
  | .supportedVersions v => codecVersion.encode v
  | .transportParameters p => p
  | .transportParametersDraft p => p
  | .unknown _ p => p

/-- `Self::X` for an extension without a body: the arms `=> Self::X` of crates/tls-core/src/msgs/handshake.rs:802-834 and the check 836-840. -/
def emptyBody {ε : Type} (b : Bytes) (e : ε) : Option ε := if b = [] then some e else none

/-- crates/tls-core/src/msgs/handshake.rs:802-841: the `match` of `ServerExtension::read` and the check that nothing is left. -/
def ServerExtension.parse (typ : UInt16) (b : Bytes) : Option ServerExtension :=
  if typ = 0x000b then (codecU8.vecU8.read.whole b).map .ecPointFormats
  else if typ = 0x0000 then emptyBody b .serverNameAck
  else if typ = 0x0023 then emptyBody b .sessionTicketAck
  else if typ = 0x0005 then emptyBody b .certificateStatusAck
  else if typ = 0xff01 then (codecPayloadU8.read.whole b).map .renegotiationInfo
  else if typ = 0x0010 then (codecPayloadU8.vecU16.read.whole b).map .protocols
  else if typ = 0x0033 then (codecKeyShareEntry.read.whole b).map .keyShare
  else if typ = 0x0029 then (codecU16.read.whole b).map .presharedKey
  else if typ = 0x0017 then emptyBody b .extendedMasterSecretAck
  else if typ = 0x0012 then (codecPayloadU16.vecU16.read.whole b).map .signedCertificateTimestamp
  else if typ = 0x002b then (codecVersion.read.whole b).map .supportedVersions
  else if typ = 0x0039 then some (.transportParameters b)
  else if typ = 0xffa5 then some (.transportParametersDraft b)
  else if typ = 0x002a then emptyBody b .earlyData
  else some (.unknown typ b)

/-- crates/tls-core/src/msgs/handshake.rs:774-842 `Codec for ServerExtension`. -/
def codecServerExtension : Codec ServerExtension :=
  codecExtension ServerExtension.getType ServerExtension.body ServerExtension.parse

/-- crates/tls-core/src/msgs/handshake.rs:861-868 `ClientHelloPayload`. -/
structure ClientHello where
  clientVersion : ProtocolVersion
  random : Bytes
  sessionId : Bytes
  cipherSuites : List UInt16
  compressionMethods : List UInt8
  extensions : List ClientExtension
  deriving DecidableEq, Repr

/-- crates/tls-core/src/msgs/handshake.rs:878-880: the extensions are not written if there are none. -/
def encodeClientExtensions (l : List ClientExtension) : Bytes :=
  if l = [] then [] else (codecClientExtension fun _ => true).vecU16.encode l

/-- crates/tls-core/src/msgs/handshake.rs:871-881 `ClientHelloPayload::encode`. -/
def ClientHello.encode (h : ClientHello) : Bytes :=
  codecVersion.encode h.clientVersion ++ (codecRandom.encode h.random ++ (codecSessionId.encode h.sessionId ++
    (codecU16.vecU16.encode h.cipherSuites ++ (codecU8.vecU8.encode h.compressionMethods ++
      encodeClientExtensions h.extensions))))

/-- crates/tls-core/src/msgs/handshake.rs:893-901: the extensions of `ClientHelloPayload::read`. -/
def readClientExtensions (dnsOk : Bytes → Bool) : Rd (List ClientExtension) := fun r =>
  if r.anyLeft then
    match (codecClientExtension dnsOk).vecU16.read r with
    | some (l, r) => if r.anyLeft ∨ l = [] then none else some (l, r)
    | none => none
  else none

/-- crates/tls-core/src/msgs/handshake.rs:883-902 `ClientHelloPayload::read`. -/
def readClientHello (dnsOk : Bytes → Bool) : Rd ClientHello := do
  let v ← codecVersion.read
  let random ← codecRandom.read
  let sid ← codecSessionId.read
  let suites ← codecU16.vecU16.read
  let compression ← codecU8.vecU8.read
  let exts ← readClientExtensions dnsOk
  return ⟨v, random, sid, suites, compression, exts⟩

/-- crates/tls-core/src/msgs/handshake.rs:1049-1054 `HelloRetryExtension`. -/
inductive HelloRetryExtension where
  | keyShare (g : UInt16)
  | cookie (p : Bytes)
  | supportedVersions (v : ProtocolVersion)
  | unknown (typ : UInt16) (p : Bytes)
  deriving DecidableEq, Repr

/-- crates/tls-core/src/msgs/handshake.rs:1057-1064 `get_type`. -/
def HelloRetryExtension.getType : HelloRetryExtension → UInt16
  | .keyShare _ => 0x0033
  | .cookie _ => 0x002c
  | .supportedVersions _ => 0x002b
  | .unknown typ _ => typ

/-- crates/tls-core/src/msgs/handshake.rs:1068-1081. -/
def HelloRetryExtension.body : HelloRetryExtension → Bytes
  | .keyShare g => codecU16.encode g
  | .cookie p => codecPayloadU16.encode p
  | .supportedVersions v => codecVersion.encode v
  | .unknown _ p => p

/-- crates/tls-core/src/msgs/handshake.rs:1083-1102. -/
def HelloRetryExtension.parse (typ : UInt16) (b : Bytes) : Option HelloRetryExtension :=
  if typ = 0x0033 then (codecU16.read.whole b).map .keyShare
  else if typ = 0x002c then (codecPayloadU16.read.whole b).map .cookie
  else if typ = 0x002b then (codecVersion.read.whole b).map .supportedVersions
  else some (.unknown typ b)

/-- crates/tls-core/src/msgs/handshake.rs:1067-1103 `Codec for HelloRetryExtension`. -/
def codecHelloRetryExtension : Codec HelloRetryExtension :=
  codecExtension HelloRetryExtension.getType HelloRetryExtension.body HelloRetryExtension.parse

/-- crates/tls-core/src/msgs/handshake.rs:1106-1111 `HelloRetryRequest`. -/
structure HelloRetryRequest where
  legacyVersion : ProtocolVersion
  sessionId : Bytes
  cipherSuite : UInt16
  extensions : List HelloRetryExtension
  deriving DecidableEq, Repr

/-- crates/tls-core/src/msgs/handshake.rs:1114-1121 `HelloRetryRequest::encode`. -/
def HelloRetryRequest.encode (h : HelloRetryRequest) : Bytes :=
  codecVersion.encode h.legacyVersion ++ (helloRetryRandom ++ (codecSessionId.encode h.sessionId ++
    (codecU16.encode h.cipherSuite ++ (codecU8.encode 0 ++ codecHelloRetryExtension.vecU16.encode h.extensions))))

/-- crates/tls-core/src/msgs/handshake.rs:1123-1138 `HelloRetryRequest::read`, with the version that is filled in at 2197-2199. -/
def readHelloRetryRequest (version : ProtocolVersion) : Rd HelloRetryRequest := do
  let sid ← codecSessionId.read
  let suite ← codecU16.read
  let _ ← (codecU8.check (· == 0)).read
  let exts ← codecHelloRetryExtension.vecU16.read
  return ⟨version, sid, suite, exts⟩

/-- crates/tls-core/src/msgs/handshake.rs:1197-1204 `ServerHelloPayload`. -/
structure ServerHello where
  legacyVersion : ProtocolVersion
  random : Bytes
  sessionId : Bytes
  cipherSuite : UInt16
  compressionMethod : UInt8
  extensions : List ServerExtension
  deriving DecidableEq, Repr

/-- crates/tls-core/src/msgs/handshake.rs:1207-1215 `ServerHelloPayload::encode`. -/
def ServerHello.encode (h : ServerHello) : Bytes :=
  codecVersion.encode h.legacyVersion ++ (codecRandom.encode h.random ++ (codecSessionId.encode h.sessionId ++
    (codecU16.encode h.cipherSuite ++ (codecU8.encode h.compressionMethod ++
      codecServerExtension.vecU16.encode h.extensions))))

/-- crates/tls-core/src/msgs/handshake.rs:1218-1238 `ServerHelloPayload::read`, with the version and the random that are filled in at
2202-2205; the check that
nothing is left is made by the caller as well. -/
def readServerHello (version : ProtocolVersion) (random : Bytes) : Rd ServerHello := do
  let sid ← codecSessionId.read
  let suite ← codecU16.read
  let compression ← codecU8.read
  let exts ← codecServerExtension.vecU16.read
  return ⟨version, random, sid, suite, compression, exts⟩

/-- crates/tls-core/src/msgs/handshake.rs:1296-1305 `Codec for CertificatePayload`; a certificate is its bytes (crates/tls-core/src/msgs/base.rs:38-50). -/
def codecCertificates : Codec (List Bytes) := codecPayloadU24.vecU24 0x10000

/-- crates/tls-core/src/msgs/handshake.rs:2072-2088 `Codec for CertificateStatus`; the value is the OCSP response. -/
def codecCertificateStatus : Codec Bytes :=
  (((codecU8.check (· == 1)).seq codecPayloadU24).fields Prod.snd fun p => (1, p))

/-- crates/tls-core/src/msgs/handshake.rs:1312-1316 `CertificateExtension`. -/
inductive CertificateExtension where
  | certificateStatus (ocsp : Bytes)
  | signedCertificateTimestamp (l : List Bytes)
  | unknown (typ : UInt16) (p : Bytes)
  deriving DecidableEq, Repr

/-- crates/tls-core/src/msgs/handshake.rs:1319-1325 `get_type`. -/
def CertificateExtension.getType : CertificateExtension → UInt16
  | .certificateStatus _ => 0x0005
  | .signedCertificateTimestamp _ => 0x0012
  | .unknown typ _ => typ

/-- crates/tls-core/src/msgs/handshake.rs:1348-1360. -/
def CertificateExtension.body : CertificateExtension → Bytes
  | .certificateStatus p => codecCertificateStatus.encode p
  | .signedCertificateTimestamp l => codecPayloadU16.vecU16.encode l
  | .unknown _ p => p

/-- crates/tls-core/src/msgs/handshake.rs:1362-1384. -/
def CertificateExtension.parse (typ : UInt16) (b : Bytes) : Option CertificateExtension :=
  if typ = 0x0005 then (codecCertificateStatus.read.whole b).map .certificateStatus
  else if typ = 0x0012 then (codecPayloadU16.vecU16.read.whole b).map .signedCertificateTimestamp
  else some (.unknown typ b)

/-- crates/tls-core/src/msgs/handshake.rs:1347-1385 `Codec for CertificateExtension`. -/
def codecCertificateExtension : Codec CertificateExtension :=
  codecExtension CertificateExtension.getType CertificateExtension.body CertificateExtension.parse

/-- crates/tls-core/src/msgs/handshake.rs:1390-1393 `CertificateEntry`. -/
structure CertificateEntry where
  cert : Bytes
  exts : List CertificateExtension
  deriving DecidableEq, Repr

/-- crates/tls-core/src/msgs/handshake.rs:1395-1407 `Codec for CertificateEntry`. -/
def codecCertificateEntry : Codec CertificateEntry :=
  (codecPayloadU24.seq codecCertificateExtension.vecU16).fields (fun p => ⟨p.1, p.2⟩) fun e => (e.cert, e.exts)

/-- crates/tls-core/src/msgs/handshake.rs:1454-1457 `CertificatePayloadTLS13`. -/
structure CertificatePayload13 where
  context : Bytes
  entries : List CertificateEntry
  deriving DecidableEq, Repr

/-- crates/tls-core/src/msgs/handshake.rs:1459-1471 `Codec for CertificatePayloadTLS13`. -/
def codecCertificatePayload13 : Codec CertificatePayload13 :=
  (codecPayloadU8.seq (codecCertificateEntry.vecU24 0x10000)).fields (fun p => ⟨p.1, p.2⟩)
    fun e => (e.context, e.entries)

/-- crates/tls-core/src/msgs/handshake.rs:1578-1581 `DigitallySignedStruct`. -/
structure DigitallySigned where
  scheme : UInt16
  sig : Bytes
  deriving DecidableEq, Repr

/-- crates/tls-core/src/msgs/handshake.rs:1592-1604 `Codec for DigitallySignedStruct`. -/
def codecDigitallySigned : Codec DigitallySigned :=
  (codecU16.seq codecPayloadU16).fields (fun p => ⟨p.1, p.2⟩) fun e => (e.scheme, e.sig)

/-- crates/tls-core/src/msgs/handshake.rs:1549-1552, 1623-1626, 1658-1661 `ECDHEServerKeyExchange` with `ServerECDHParams` and `ECParameters`;
the curve type is
`NamedCurve` in every value that `read` returns. -/
structure EcdheServerKeyExchange where
  namedGroup : UInt16
  publicKey : Bytes
  dss : DigitallySigned
  deriving DecidableEq, Repr

/-- crates/tls-core/src/msgs/handshake.rs:1554-1574, 1640-1655, 1663-1675 the `Codec`s of these. -/
def codecEcdheServerKeyExchange : Codec EcdheServerKeyExchange :=
  ((codecU8.check (· == 3)).seq (codecU16.seq (codecPayloadU8.seq codecDigitallySigned))).fields
    (fun p => ⟨p.2.1, p.2.2.1, p.2.2.2⟩) fun e => (3, e.namedGroup, e.publicKey, e.dss)

/-- crates/tls-core/src/msgs/handshake.rs:1699-1714 `ServerKeyExchangePayload::unwrap_given_kxa` for ECDHE; the payload is the bytes kept by
`read`. -/
def unwrapEcdhe (p : Bytes) : Option EcdheServerKeyExchange := codecEcdheServerKeyExchange.read.whole p

/-- crates/tls-core/src/msgs/handshake.rs:1769-1773 `CertificateRequestPayload`. -/
structure CertificateRequestPayload where
  certTypes : List UInt8
  sigSchemes : List UInt16
  caNames : List Bytes
  deriving DecidableEq, Repr

/-- crates/tls-core/src/msgs/handshake.rs:1775-1798 `Codec for CertificateRequestPayload`. -/
def codecCertificateRequest : Codec CertificateRequestPayload :=
  ((codecU8.vecU8.seq (codecU16.vecU16.seq codecPayloadU16.vecU16)).fields (fun p => ⟨p.1, p.2.1, p.2.2⟩)
    fun e => (e.certTypes, e.sigSchemes, e.caNames)).check fun e => !e.sigSchemes.isEmpty

/-- crates/tls-core/src/msgs/handshake.rs:1801-1805 `CertReqExtension`. -/
inductive CertReqExtension where
  | signatureAlgorithms (l : List UInt16)
  | authorityNames (l : List Bytes)
  | unknown (typ : UInt16) (p : Bytes)
  deriving DecidableEq, Repr

/-- crates/tls-core/src/msgs/handshake.rs:1808-1814 `get_type`. -/
def CertReqExtension.getType : CertReqExtension → UInt16
  | .signatureAlgorithms _ => 0x000d
  | .authorityNames _ => 0x002f
  | .unknown typ _ => typ

/-- crates/tls-core/src/msgs/handshake.rs:1818-1830. -/
def CertReqExtension.body : CertReqExtension → Bytes
  | .signatureAlgorithms l => codecU16.vecU16.encode l
  | .authorityNames l => codecPayloadU16.vecU16.encode l
  | .unknown _ p => p

/-- crates/tls-core/src/msgs/handshake.rs:1832-1857. -/
def CertReqExtension.parse (typ : UInt16) (b : Bytes) : Option CertReqExtension :=
  if typ = 0x000d then ((codecU16.vecU16.check fun l => !l.isEmpty).read.whole b).map .signatureAlgorithms
  else if typ = 0x002f then (codecPayloadU16.vecU16.read.whole b).map .authorityNames
  else some (.unknown typ b)

/-- crates/tls-core/src/msgs/handshake.rs:1817-1858 `Codec for CertReqExtension`. -/
def codecCertReqExtension : Codec CertReqExtension :=
  codecExtension CertReqExtension.getType CertReqExtension.body CertReqExtension.parse

/-- crates/tls-core/src/msgs/handshake.rs:1863-1866 `CertificateRequestPayloadTLS13`. -/
structure CertificateRequest13 where
  context : Bytes
  extensions : List CertReqExtension
  deriving DecidableEq, Repr

/-- crates/tls-core/src/msgs/handshake.rs:1868-1883 `Codec for CertificateRequestPayloadTLS13`. -/
def codecCertificateRequest13 : Codec CertificateRequest13 :=
  (codecPayloadU8.seq codecCertReqExtension.vecU16).fields (fun p => ⟨p.1, p.2⟩) fun e => (e.context, e.extensions)

/-- crates/tls-core/src/msgs/handshake.rs:1909-1912 `NewSessionTicketPayload`. -/
structure NewSessionTicket where
  lifetimeHint : UInt32
  ticket : Bytes
  deriving DecidableEq, Repr

/-- crates/tls-core/src/msgs/handshake.rs:1923-1938 `Codec for NewSessionTicketPayload`. -/
def codecNewSessionTicket : Codec NewSessionTicket :=
  (codecU32.seq codecPayloadU16).fields (fun p => ⟨p.1, p.2⟩) fun e => (e.lifetimeHint, e.ticket)

/-- crates/tls-core/src/msgs/handshake.rs:1942-1945 `NewSessionTicketExtension`. -/
inductive NewSessionTicketExtension where
  | earlyData (n : UInt32)
  | unknown (typ : UInt16) (p : Bytes)
  deriving DecidableEq, Repr

/-- crates/tls-core/src/msgs/handshake.rs:1948-1953 `get_type`. -/
def NewSessionTicketExtension.getType : NewSessionTicketExtension → UInt16
  | .earlyData _ => 0x002a
  | .unknown typ _ => typ

/-- crates/tls-core/src/msgs/handshake.rs:1957-1968. -/
def NewSessionTicketExtension.body : NewSessionTicketExtension → Bytes
  | .earlyData n => codecU32.encode n
  | .unknown _ p => p

/-- crates/tls-core/src/msgs/handshake.rs:1970-1985. -/
def NewSessionTicketExtension.parse (typ : UInt16) (b : Bytes) : Option NewSessionTicketExtension :=
  if typ = 0x002a then (codecU32.read.whole b).map .earlyData
  else some (.unknown typ b)

/-- crates/tls-core/src/msgs/handshake.rs:1956-1986 `Codec for NewSessionTicketExtension`. -/
def codecNewSessionTicketExtension : Codec NewSessionTicketExtension :=
  codecExtension NewSessionTicketExtension.getType NewSessionTicketExtension.body NewSessionTicketExtension.parse

/-- crates/tls-core/src/msgs/handshake.rs:1991-1997 `NewSessionTicketPayloadTLS13`. -/
structure NewSessionTicket13 where
  lifetime : UInt32
  ageAdd : UInt32
  nonce : Bytes
  ticket : Bytes
  exts : List NewSessionTicketExtension
  deriving DecidableEq, Repr

/-- crates/tls-core/src/msgs/handshake.rs:2038-2062 `Codec for NewSessionTicketPayloadTLS13`. -/
def codecNewSessionTicket13 : Codec NewSessionTicket13 :=
  (codecU32.seq (codecU32.seq (codecPayloadU8.seq (codecPayloadU16.seq codecNewSessionTicketExtension.vecU16)))).fields
    (fun p => ⟨p.1, p.2.1, p.2.2.1, p.2.2.2.1, p.2.2.2.2⟩) fun e => (e.lifetime, e.ageAdd, e.nonce, e.ticket, e.exts)

/-- crates/tls-core/src/msgs/handshake.rs:2103-2125 `HandshakePayload`.  A `ServerKeyExchangePayload` is always the `Unknown` one on the wire
(1691-1695). -/
inductive HandshakePayload where
  | helloRequest
  | clientHello (h : ClientHello)
  | serverHello (h : ServerHello)
  | helloRetryRequest (h : HelloRetryRequest)
  | certificate (l : List Bytes)
  | certificate13 (p : CertificatePayload13)
  | serverKeyExchange (p : Bytes)
  | certificateRequest (p : CertificateRequestPayload)
  | certificateRequest13 (p : CertificateRequest13)
  | certificateVerify (d : DigitallySigned)
  | serverHelloDone
  | endOfEarlyData
  | clientKeyExchange (p : Bytes)
  | newSessionTicket (t : NewSessionTicket)
  | newSessionTicket13 (t : NewSessionTicket13)
  | encryptedExtensions (l : List ServerExtension)
  | keyUpdate (r : UInt8)
  | finished (p : Bytes)
  | certificateStatus (ocsp : Bytes)
  | messageHash (p : Bytes)
  | unknown (p : Bytes)
  deriving DecidableEq, Repr

/-- crates/tls-core/src/msgs/handshake.rs:2128-2152 `HandshakePayload::encode`. -/
def HandshakePayload.encode : HandshakePayload → Bytes
  | .helloRequest => []
  | .serverHelloDone => []
  | .endOfEarlyData => []
  | .clientHello h => h.encode
  | .serverHello h => h.encode
  | .helloRetryRequest h => h.encode
  | .certificate l => codecCertificates.encode l
  | .certificate13 p => codecCertificatePayload13.encode p
  | .serverKeyExchange p => p
  | .clientKeyExchange p => p
  | .certificateRequest p => codecCertificateRequest.encode p
  | .certificateRequest13 p => codecCertificateRequest13.encode p
  | .certificateVerify d => codecDigitallySigned.encode d
  | .newSessionTicket t => codecNewSessionTicket.encode t
  | .newSessionTicket13 t => codecNewSessionTicket13.encode t
  | .encryptedExtensions l => codecServerExtension.vecU16.encode l
  | .keyUpdate r => codecU8.encode r
  | .finished p => p
  | .certificateStatus p => codecCertificateStatus.encode p
  | .messageHash p => p
  | .unknown p => p

/-- crates/tls-core/src/msgs/handshake.rs:2156-2159 `HandshakeMessagePayload`. -/
structure HandshakeMessage where
  typ : UInt8
  payload : HandshakePayload
  deriving DecidableEq, Repr

/-- crates/tls-core/src/msgs/handshake.rs:2168-2171: a hello retry request is written as a server hello. -/
def HandshakeMessage.wireType (m : HandshakeMessage) : UInt8 := if m.typ = 0x06 then 0x02 else m.typ

/-- crates/tls-core/src/msgs/handshake.rs:2162-2175 `HandshakeMessagePayload::encode`. -/
def HandshakeMessage.encode (m : HandshakeMessage) : Bytes :=
  codecU8.encode m.wireType ++ (codecU24.encode ⟨UInt32.ofNat m.payload.encode.length⟩ ++ m.payload.encode)

/-- crates/tls-core/src/msgs/handshake.rs:2193-2207: the body of a server hello. -/
def readServerHelloOrRetry : Rd HandshakeMessage := do
  let version ← codecVersion.read
  let random ← codecRandom.read
  if random = helloRetryRandom then do
    return ⟨0x06, .helloRetryRequest (← readHelloRetryRequest version)⟩
  else do
    return ⟨0x02, .serverHello (← readServerHello version random)⟩

/-- crates/tls-core/src/msgs/handshake.rs:2183-2280: the `match` of `HandshakeMessagePayload::read_version` and the check that nothing is left.
-/
def parseHandshake (dnsOk : Bytes → Bool) (typ : UInt8) (vers : ProtocolVersion) (b : Bytes) :
    Option HandshakeMessage :=
  if typ = 0x00 ∧ b = [] then some ⟨typ, .helloRequest⟩
  else if typ = 0x01 then ((readClientHello dnsOk).whole b).map fun h => ⟨typ, .clientHello h⟩
  else if typ = 0x02 then readServerHelloOrRetry.whole b
  else if typ = 0x0b ∧ vers = .tls13 then
    (codecCertificatePayload13.read.whole b).map fun p => ⟨typ, .certificate13 p⟩
  else if typ = 0x0b then (codecCertificates.read.whole b).map fun p => ⟨typ, .certificate p⟩
  else if typ = 0x0c then some ⟨typ, .serverKeyExchange b⟩
  else if typ = 0x0e then emptyBody b ⟨typ, .serverHelloDone⟩
  else if typ = 0x10 then some ⟨typ, .clientKeyExchange b⟩
  else if typ = 0x0d ∧ vers = .tls13 then
    (codecCertificateRequest13.read.whole b).map fun p => ⟨typ, .certificateRequest13 p⟩
  else if typ = 0x0d then (codecCertificateRequest.read.whole b).map fun p => ⟨typ, .certificateRequest p⟩
  else if typ = 0x0f then (codecDigitallySigned.read.whole b).map fun p => ⟨typ, .certificateVerify p⟩
  else if typ = 0x04 ∧ vers = .tls13 then
    (codecNewSessionTicket13.read.whole b).map fun p => ⟨typ, .newSessionTicket13 p⟩
  else if typ = 0x04 then (codecNewSessionTicket.read.whole b).map fun p => ⟨typ, .newSessionTicket p⟩
  else if typ = 0x08 then (codecServerExtension.vecU16.read.whole b).map fun p => ⟨typ, .encryptedExtensions p⟩
  else if typ = 0x18 then (codecU8.read.whole b).map fun p => ⟨typ, .keyUpdate p⟩
  else if typ = 0x05 then emptyBody b ⟨typ, .endOfEarlyData⟩
  else if typ = 0x14 then some ⟨typ, .finished b⟩
  else if typ = 0x16 then (codecCertificateStatus.read.whole b).map fun p => ⟨typ, .certificateStatus p⟩
  else if typ = 0xfe then none
  else if typ = 0x06 then none
  else some ⟨typ, .unknown b⟩

/-- crates/tls-core/src/msgs/message.rs:16-21 `MessagePayload`. -/
inductive MessagePayload where
  | alert (level description : UInt8)
  | handshake (m : HandshakeMessage)
  | changeCipherSpec
  | applicationData (p : Bytes)
  deriving DecidableEq, Repr

/-- crates/tls-core/src/msgs/message.rs:24-31 `MessagePayload::encode`. -/
def MessagePayload.encode : MessagePayload → Bytes
  | .alert l d => codecU8.encode l ++ codecU8.encode d
  | .handshake m => m.encode
  | .changeCipherSpec => codecU8.encode 1
  | .applicationData p => p

/-- crates/tls-core/src/msgs/alert.rs:12-24 `Codec for AlertMessagePayload`. -/
def codecAlert : Codec (UInt8 × UInt8) := codecU8.seq codecU8

/-- crates/tls-core/src/msgs/ccs.rs:6-20 `Codec for ChangeCipherSpecPayload`. -/
def codecCcs : Codec UInt8 := codecU8.check (· == 1)

/-- crates/tls-core/src/msgs/handshake.rs:2183-2280 with `parseHandshake`: the whole of `HandshakeMessagePayload::read_version`. -/
def readHandshakeMessage (dnsOk : Bytes → Bool) (vers : ProtocolVersion) : Rd HandshakeMessage := do
  let typ ← codecU8.read
  let len ← codecU24.read
  let body ← readBody len.val.toNat
  Rd.lift (parseHandshake dnsOk typ vers body)

/-- crates/tls-core/src/msgs/message.rs:33-50 `MessagePayload::new`; `none` is `CorruptMessagePayload`. -/
def MessagePayload.new (dnsOk : Bytes → Bool) (typ : ContentType) (vers : ProtocolVersion) (payload : Bytes) :
    Option MessagePayload :=
  match typ with
  | .applicationData => some (.applicationData payload)
  | .alert => (codecAlert.read.whole payload).map fun p => .alert p.1 p.2
  | .handshake => ((readHandshakeMessage dnsOk vers).whole payload).map .handshake
  | .changeCipherSpec => (codecCcs.read.whole payload).map fun _ => .changeCipherSpec
  | _ => none

/-- crates/tls-core/src/msgs/message.rs:52-59 `content_type`. -/
def MessagePayload.contentType : MessagePayload → ContentType
  | .alert _ _ => .alert
  | .handshake _ => .handshake
  | .changeCipherSpec => .changeCipherSpec
  | .applicationData _ => .applicationData

end Tlsn
