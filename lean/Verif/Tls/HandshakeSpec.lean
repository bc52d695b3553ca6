import Verif.Tls.Handshake

/-! # Which handshake messages can be written on the wire

`Fits` says that every part of a message fits the length prefix in front of it and that the message is of the form that
its type requires.
-/

namespace Tlsn

/-- The items, one after the other, fit a prefix that counts up to `2 ^ bits` bytes. -/
def VecFits {α : Type} (bits : Nat) (c : Codec α) (P : α → Prop) (l : List α) : Prop :=
  (∀ x ∈ l, P x) ∧ (encodeAll c l).length < 2 ^ bits

/-- The items fit a 24 bit prefix and the limit of 64 KiB. -/
def Vec24Fits {α : Type} (c : Codec α) (P : α → Prop) (l : List α) : Prop :=
  (∀ x ∈ l, P x) ∧ (encodeAll c l).length < 2 ^ 24 ∧ (encodeAll c l).length ≤ 0x10000

/-- Not `Unknown(n)` where `n` is the number of a known version. -/
def ProtocolVersion.Canonical (v : ProtocolVersion) : Prop := ProtocolVersion.ofU16 v.getU16 = v

/-- Host names are DNS names; only host names have the type number zero. -/
def SniName.Fits (dnsOk : Bytes → Bool) (n : SniName) : Prop :=
  match n.payload with
  | .hostName raw => n.typ = 0 ∧ raw.length < 2 ^ 16 ∧ dnsOk raw = true
  | .unknown _ => n.typ ≠ 0

/-- A name of an unknown type extends to the end, so it can only be the last one. -/
def ServerNamesFit (dnsOk : Bytes → Bool) (l : List SniName) : Prop :=
  VecFits 16 (codecServerName dnsOk) (SniName.Fits dnsOk) l ∧ ∀ n ∈ l.dropLast, n.typ = 0

def KeyShareEntry.Fits (e : KeyShareEntry) : Prop := e.payload.length < 2 ^ 16

def PresharedKeyIdentity.Fits (e : PresharedKeyIdentity) : Prop := e.identity.length < 2 ^ 16

def PresharedKeyOffer.Fits (o : PresharedKeyOffer) : Prop :=
  VecFits 16 codecPskIdentity PresharedKeyIdentity.Fits o.identities ∧
    VecFits 16 codecPayloadU8 (fun b => b.length < 2 ^ 8) o.binders

def CertificateStatusRequest.Fits : CertificateStatusRequest → Prop
  | .ocsp ids ext => VecFits 16 codecPayloadU16 (fun b => b.length < 2 ^ 16) ids ∧ ext.length < 2 ^ 16
  | .unknown typ _ => typ ≠ 1

/-- The extension types that a client hello parses always, and those that it parses if the body is empty. -/
def clientExtensionTypes : List UInt16 :=
  [0x000b, 0x000a, 0x000d, 0x0000, 0x0023, 0x0010, 0x002b, 0x0033, 0x002d, 0x0029, 0x002c, 0x0005, 0x0039, 0xffa5]

def clientFlagTypes : List UInt16 := [0x0017, 0x0012, 0x002a]

def ClientExtension.BodyFits (dnsOk : Bytes → Bool) : ClientExtension → Prop
  | .ecPointFormats l => VecFits 8 codecU8 (fun _ => True) l
  | .namedGroups l => VecFits 16 codecU16 (fun _ => True) l
  | .signatureAlgorithms l => VecFits 16 codecU16 (fun _ => True) l
  | .serverName l => ServerNamesFit dnsOk l
  | .sessionTicketOffer p => p ≠ []
  | .protocols l => VecFits 16 codecPayloadU8 (fun b => b.length < 2 ^ 8) l
  | .supportedVersions l => VecFits 8 codecVersion ProtocolVersion.Canonical l
  | .keyShare l => VecFits 16 codecKeyShareEntry KeyShareEntry.Fits l
  | .presharedKeyModes l => VecFits 8 codecU8 (fun _ => True) l
  | .presharedKey o => o.Fits
  | .cookie p => p.length < 2 ^ 16
  | .certificateStatusRequest r => r.Fits
  | .unknown typ p => typ ∉ clientExtensionTypes ∧ (typ ∈ clientFlagTypes → p ≠ [])
  | .sessionTicketRequest => True
  | .extendedMasterSecretRequest => True
  | .signedCertificateTimestampRequest => True
  | .transportParameters _ => True
  | .transportParametersDraft _ => True
  | .earlyData => True

/-- The extension can be written. -/
def ClientExtension.Fits (dnsOk : Bytes → Bool) (e : ClientExtension) : Prop :=
  e.BodyFits dnsOk ∧ e.body.length < 2 ^ 16

/-- The extension types that a server hello parses. -/
def serverExtensionTypes : List UInt16 :=
  [0x000b, 0x0000, 0x0023, 0x0005, 0xff01, 0x0010, 0x0033, 0x0029, 0x0017, 0x0012, 0x002b, 0x0039, 0xffa5, 0x002a]

def ServerExtension.BodyFits : ServerExtension → Prop
  | .ecPointFormats l => VecFits 8 codecU8 (fun _ => True) l
  | .renegotiationInfo p => p.length < 2 ^ 8
  | .protocols l => VecFits 16 codecPayloadU8 (fun b => b.length < 2 ^ 8) l
  | .keyShare e => e.Fits
  | .signedCertificateTimestamp l => VecFits 16 codecPayloadU16 (fun b => b.length < 2 ^ 16) l
  | .supportedVersions v => v.Canonical
  | .unknown typ _ => typ ∉ serverExtensionTypes
  | .serverNameAck => True
  | .sessionTicketAck => True
  | .presharedKey _ => True
  | .extendedMasterSecretAck => True
  | .certificateStatusAck => True
  | .transportParameters _ => True
  | .transportParametersDraft _ => True
  | .earlyData => True

def ServerExtension.Fits (e : ServerExtension) : Prop := e.BodyFits ∧ e.body.length < 2 ^ 16

/-- A client hello that can be read has extensions. -/
structure ClientHello.Fits (dnsOk : Bytes → Bool) (h : ClientHello) : Prop where
  version : h.clientVersion.Canonical
  random : h.random.length = 32
  sessionId : h.sessionId.length ≤ 32
  suites : VecFits 16 codecU16 (fun _ => True) h.cipherSuites
  compression : VecFits 8 codecU8 (fun _ => True) h.compressionMethods
  extensions : VecFits 16 (codecClientExtension dnsOk) (ClientExtension.Fits dnsOk) h.extensions
  some : h.extensions ≠ []

def HelloRetryExtension.Fits (e : HelloRetryExtension) : Prop :=
  (match e with
    | .keyShare _ => True
    | .cookie p => p.length < 2 ^ 16
    | .supportedVersions v => v.Canonical
    | .unknown typ _ => typ ∉ ([0x0033, 0x002c, 0x002b] : List UInt16)) ∧ e.body.length < 2 ^ 16

structure HelloRetryRequest.Fits (h : HelloRetryRequest) : Prop where
  version : h.legacyVersion.Canonical
  sessionId : h.sessionId.length ≤ 32
  extensions : VecFits 16 codecHelloRetryExtension HelloRetryExtension.Fits h.extensions

/-- The random of a server hello is not the one that marks a hello retry request. -/
structure ServerHello.Fits (h : ServerHello) : Prop where
  version : h.legacyVersion.Canonical
  random : h.random.length = 32
  notRetry : h.random ≠ helloRetryRandom
  sessionId : h.sessionId.length ≤ 32
  extensions : VecFits 16 codecServerExtension ServerExtension.Fits h.extensions

def CertificateExtension.Fits (e : CertificateExtension) : Prop :=
  (match e with
    | .certificateStatus p => p.length < 2 ^ 24
    | .signedCertificateTimestamp l => VecFits 16 codecPayloadU16 (fun b => b.length < 2 ^ 16) l
    | .unknown typ _ => typ ∉ ([0x0005, 0x0012] : List UInt16)) ∧ e.body.length < 2 ^ 16

def CertificateEntry.Fits (e : CertificateEntry) : Prop :=
  e.cert.length < 2 ^ 24 ∧ VecFits 16 codecCertificateExtension CertificateExtension.Fits e.exts

def CertificatePayload13.Fits (p : CertificatePayload13) : Prop :=
  p.context.length < 2 ^ 8 ∧ Vec24Fits codecCertificateEntry CertificateEntry.Fits p.entries

def DigitallySigned.Fits (d : DigitallySigned) : Prop := d.sig.length < 2 ^ 16

def EcdheServerKeyExchange.Fits (e : EcdheServerKeyExchange) : Prop := e.publicKey.length < 2 ^ 8 ∧ e.dss.Fits

structure CertificateRequestPayload.Fits (p : CertificateRequestPayload) : Prop where
  certTypes : VecFits 8 codecU8 (fun _ => True) p.certTypes
  sigSchemes : VecFits 16 codecU16 (fun _ => True) p.sigSchemes
  caNames : VecFits 16 codecPayloadU16 (fun b => b.length < 2 ^ 16) p.caNames
  some : p.sigSchemes ≠ []

def CertReqExtension.Fits (e : CertReqExtension) : Prop :=
  (match e with
    | .signatureAlgorithms l => VecFits 16 codecU16 (fun _ => True) l ∧ l ≠ []
    | .authorityNames l => VecFits 16 codecPayloadU16 (fun b => b.length < 2 ^ 16) l
    | .unknown typ _ => typ ∉ ([0x000d, 0x002f] : List UInt16)) ∧ e.body.length < 2 ^ 16

def CertificateRequest13.Fits (p : CertificateRequest13) : Prop :=
  p.context.length < 2 ^ 8 ∧ VecFits 16 codecCertReqExtension CertReqExtension.Fits p.extensions

def NewSessionTicket.Fits (t : NewSessionTicket) : Prop := t.ticket.length < 2 ^ 16

def NewSessionTicketExtension.Fits (e : NewSessionTicketExtension) : Prop :=
  (match e with
    | .earlyData _ => True
    | .unknown typ _ => typ ≠ 0x002a) ∧ e.body.length < 2 ^ 16

def NewSessionTicket13.Fits (t : NewSessionTicket13) : Prop :=
  t.nonce.length < 2 ^ 8 ∧ t.ticket.length < 2 ^ 16 ∧
    VecFits 16 codecNewSessionTicketExtension NewSessionTicketExtension.Fits t.exts

/-- The handshake types which are parsed, and the two that are never accepted. -/
def handshakeTypes : List UInt8 :=
  [0x01, 0x02, 0x0b, 0x0c, 0x0e, 0x10, 0x0d, 0x0f, 0x04, 0x08, 0x18, 0x05, 0x14, 0x16, 0xfe, 0x06]

/-- The payload is of the form required by the type (and the version, for the three messages that TLS 1.3 changed), and
its parts fit. -/
def HandshakeMessage.BodyFits (dnsOk : Bytes → Bool) (vers : ProtocolVersion) (m : HandshakeMessage) : Prop :=
  match m.payload with
  | .helloRequest => m.typ = 0x00
  | .clientHello h => m.typ = 0x01 ∧ h.Fits dnsOk
  | .serverHello h => m.typ = 0x02 ∧ h.Fits
  | .helloRetryRequest h => m.typ = 0x06 ∧ h.Fits
  | .certificate l => m.typ = 0x0b ∧ vers ≠ .tls13 ∧ Vec24Fits codecPayloadU24 (fun c => c.length < 2 ^ 24) l
  | .certificate13 p => m.typ = 0x0b ∧ vers = .tls13 ∧ p.Fits
  | .serverKeyExchange _ => m.typ = 0x0c
  | .serverHelloDone => m.typ = 0x0e
  | .clientKeyExchange _ => m.typ = 0x10
  | .certificateRequest p => m.typ = 0x0d ∧ vers ≠ .tls13 ∧ p.Fits
  | .certificateRequest13 p => m.typ = 0x0d ∧ vers = .tls13 ∧ p.Fits
  | .certificateVerify d => m.typ = 0x0f ∧ d.Fits
  | .newSessionTicket t => m.typ = 0x04 ∧ vers ≠ .tls13 ∧ t.Fits
  | .newSessionTicket13 t => m.typ = 0x04 ∧ vers = .tls13 ∧ t.Fits
  | .encryptedExtensions l => m.typ = 0x08 ∧ VecFits 16 codecServerExtension ServerExtension.Fits l
  | .keyUpdate _ => m.typ = 0x18
  | .endOfEarlyData => m.typ = 0x05
  | .finished _ => m.typ = 0x14
  | .certificateStatus p => m.typ = 0x16 ∧ p.length < 2 ^ 24
  | .messageHash _ => False
  | .unknown p => m.typ ∉ handshakeTypes ∧ (m.typ = 0x00 → p ≠ [])

/-- The message can be written. -/
def HandshakeMessage.Fits (dnsOk : Bytes → Bool) (vers : ProtocolVersion) (m : HandshakeMessage) : Prop :=
  m.BodyFits dnsOk vers ∧ m.payload.encode.length < 2 ^ 24

/-- A record's payload of the given type. -/
def MessagePayload.Fits (dnsOk : Bytes → Bool) (vers : ProtocolVersion) : MessagePayload → Prop
  | .handshake m => m.Fits dnsOk vers
  | .alert _ _ => True
  | .changeCipherSpec => True
  | .applicationData _ => True

end Tlsn
