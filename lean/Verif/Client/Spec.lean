import Verif.Client.Base

/-!
# What a TLS 1.2 handshake with an authenticated server looks like

The history of a connection is a list of events (`Ev`).  `Session` holds what a handshake is about, `Session.script` the events of
a whole handshake, and `Session.ServerOk`, `Session.Finished` what must be true of it.
-/

namespace Tlsn.Client

/-- The events of a handshake: messages handled and sent, other than alerts, and the calls that the handshake makes. -/
def Ev.significant : Ev → Bool
  | .pushIn _ _ => false
  | .pushOut _ _ => false
  | .flush _ => false
  | .nextIn _ => false
  | .nextOut _ => false
  | .close _ => false
  | .enable _ => false
  | .plain _ => false
  | .deliver _ => false
  | .clear (.alert _ _) => false
  | .protect (.alert _ _) => false
  | _ => true

/-- The events of the handshake. -/
def significant (log : List Ev) : List Ev := log.filter Ev.significant

/-- The bytes that an event adds to the handshake messages that RFC 5246, section 7.4.9, hashes. -/
def Ev.transcript : Ev → Bytes
  | .clear (.handshake m) => m.encode
  | .protect (.handshake m) => m.encode
  | .handle (.handshake m) => m.encode
  | _ => []

/-- The handshake messages so far, in the order in which they were sent and received. -/
def transcriptOf (log : List Ev) : Bytes := log.flatMap Ev.transcript

/-- What a handshake is about.  The fields that end in `Typ` are the type bytes of the messages as they were parsed. -/
structure Session where
  sessionId : Bytes := []
  random : Bytes := []
  ch : ClientHello := ⟨.tls12, [], [], [], [], []⟩
  shTyp : UInt8 := 0
  sh : ServerHello := ⟨.tls12, [], [], 0, 0, []⟩
  scts : Option (List Bytes) := none
  certTyp : UInt8 := 0
  chain : List Bytes := []
  status : Option (UInt8 × Bytes) := none
  kxTyp : UInt8 := 0
  kxBytes : Bytes := []
  kx : EcdheServerKeyExchange := ⟨0, [], ⟨0, []⟩⟩
  request : Option (UInt8 × CertificateRequestPayload) := none
  doneTyp : UInt8 := 0
  now : Nat := 0
  share : KeyShareEntry := ⟨0, []⟩
  sig : Bytes := []
  vd : Bytes := []
  finTyp : UInt8 := 0
  serverVd : Bytes := []

namespace Session

/-- The stapled OCSP response, if any. -/
def ocsp (d : Session) : Bytes := d.status.elim [] (·.2)

/-- What the server signs: RFC 8422, section 5.4, `ServerECDHParams`. -/
def params (d : Session) : Bytes :=
  [3] ++ beBytes 2 d.kx.namedGroup.toNat ++ [UInt8.ofNat d.kx.publicKey.length] ++ d.kx.publicKey

/-- What the leader is told about the server. -/
def serverData (d : Session) : HandshakeData :=
  ⟨d.sh.random, ⟨d.kx.namedGroup, d.kx.publicKey⟩, d.chain, d.ocsp, d.scts, d.params, d.kx.dss⟩

/-- The client's certificates and signature scheme, if the server asked for a certificate and the client has a suitable one. -/
def identity (cfg : ClientCfg) (d : Session) : Option (List Bytes × UInt16) :=
  d.request.bind fun r => cfg.resolve r.2.caNames r.2.sigSchemes

/-! ## The events -/

/-- The client hello. -/
def hello (d : Session) : List Ev :=
  [.sessionId (.ok d.sessionId), .random (.ok d.random), .clear (.handshake ⟨0x01, .clientHello d.ch⟩)]

/-- To the server hello. -/
def upToServerHello (d : Session) : List Ev := d.hello ++ [.handle (.handshake ⟨d.shTyp, .serverHello d.sh⟩)]

/-- To the server's certificate. -/
def upToCertificate (d : Session) : List Ev := d.upToServerHello ++ [.handle (.handshake ⟨d.certTyp, .certificate d.chain⟩)]

/-- To the certificate status, which is optional. -/
def upToStatus (d : Session) : List Ev :=
  d.upToCertificate ++ d.status.toList.map fun s => .handle (.handshake ⟨s.1, .certificateStatus s.2⟩)

/-- To the server's key exchange. -/
def upToKx (d : Session) : List Ev := d.upToStatus ++ [.handle (.handshake ⟨d.kxTyp, .serverKeyExchange d.kxBytes⟩)]

/-- To the certificate request, which is optional. -/
def upToRequest (d : Session) : List Ev :=
  d.upToKx ++ d.request.toList.map fun r => .handle (.handshake ⟨r.1, .certificateRequest r.2⟩)

/-- To the server hello done. -/
def upToDone (d : Session) : List Ev := d.upToRequest ++ [.handle (.handshake ⟨d.doneTyp, .serverHelloDone⟩)]

/-- To the client's certificate, which it sends if the server has asked for one. -/
def upToClientCert (cfg : ClientCfg) (d : Session) : List Ev :=
  d.upToDone ++ [.now d.now] ++
  (if d.request.isSome then [.clear (.handshake ⟨0x0b, .certificate ((d.identity cfg).elim [] (·.1))⟩)] else [])

/-- To the client's key exchange. -/
def upToClientKx (cfg : ClientCfg) (d : Session) : List Ev :=
  d.upToClientCert cfg ++
  [.keyShare (.ok d.share),
    .clear (.handshake ⟨0x10, .clientKeyExchange (UInt8.ofNat d.share.payload.length :: d.share.payload)⟩)]

/-- To the client's change of cipher spec; a client with a certificate signs the handshake messages first. -/
def upToCcs (cfg : ClientCfg) (d : Session) : List Ev :=
  d.upToClientKx cfg ++
  (match d.identity cfg with
    | some (_, scheme) => [.sign scheme (transcriptOf (d.upToClientKx cfg)) (.ok d.sig),
        .clear (.handshake ⟨0x0f, .certificateVerify ⟨scheme, d.sig⟩⟩)]
    | none => []) ++
  [.clear .changeCipherSpec]

/-- The server's key has been given to the leader. -/
def upToPrepared (cfg : ClientCfg) (d : Session) : List Ev := d.upToCcs cfg ++ [.prepare d.serverData (.ok ())]

/-- To the client's finished message. -/
def upToFinished (cfg : ClientCfg) (d : Session) : List Ev :=
  d.upToPrepared cfg ++ [.clientVd (cfg.hash (transcriptOf (d.upToPrepared cfg))) (.ok d.vd),
    .protect (.handshake ⟨0x14, .finished d.vd⟩)]

/-- To the server's change of cipher spec. -/
def upToServerCcs (cfg : ClientCfg) (d : Session) : List Ev := d.upToFinished cfg ++ [.handle .changeCipherSpec]

/-- To the server's finished message. -/
def upToServerFinished (cfg : ClientCfg) (d : Session) : List Ev :=
  d.upToServerCcs cfg ++ [.handle (.handshake ⟨d.finTyp, .finished d.serverVd⟩)]

/-- To the leader's verify data for the server, which are those that the server has sent. -/
def upToVerified (cfg : ClientCfg) (d : Session) : List Ev :=
  d.upToServerFinished cfg ++ [.serverVd (cfg.hash (transcriptOf (d.upToServerCcs cfg))) (.ok d.serverVd)]

/-- A whole handshake. -/
def script (cfg : ClientCfg) (d : Session) : List Ev := d.upToVerified cfg ++ [.startTraffic (.ok ())]

/-! ## The conditions -/

/-- The client hello: TLS 1.2, the two cipher suites (and the renegotiation signalling value), no compression, the curve
P-256, the configured names and protocols. -/
structure Offer (cfg : ClientCfg) (d : Session) : Prop where
  version : d.ch.clientVersion = .tls12
  random : d.ch.random = d.random
  sessionId : d.ch.sessionId = d.sessionId
  suites : d.ch.cipherSuites = [0xc02b, 0xc02f, 0x00ff]
  compression : d.ch.compressionMethods = [0]
  versions : ∀ l, ClientExtension.supportedVersions l ∈ d.ch.extensions ↔ l = [.tls12]
  points : ∀ l, ClientExtension.ecPointFormats l ∈ d.ch.extensions ↔ l = [0]
  groups : ∀ l, ClientExtension.namedGroups l ∈ d.ch.extensions ↔ l = [0x0017]
  schemes : ∀ l, ClientExtension.signatureAlgorithms l ∈ d.ch.extensions ↔ l = cfg.verifySchemes
  name : ∀ l, ClientExtension.serverName l ∈ d.ch.extensions ↔
    ∃ n, cfg.sni = some n ∧ cfg.enableSni = true ∧ l = [⟨0, .hostName n⟩]
  alpn : ∀ l, ClientExtension.protocols l ∈ d.ch.extensions ↔ cfg.alpn ≠ [] ∧ l = cfg.alpn
  timestamps : ClientExtension.signedCertificateTimestampRequest ∈ d.ch.extensions ↔ cfg.requestScts = true

/-- The server chose from what the client offered. -/
structure Choice (cfg : ClientCfg) (d : Session) : Prop where
  version : d.sh.legacyVersion = .tls12
  noVersionExtension : ∀ v, ServerExtension.supportedVersions v ∉ d.sh.extensions
  compression : d.sh.compressionMethod = 0
  suite : d.sh.cipherSuite = 0xc02b ∨ d.sh.cipherSuite = 0xc02f
  distinct : (d.sh.extensions.map ServerExtension.getType).Nodup
  offered : ∀ e ∈ d.sh.extensions, e.getType = 0xff01 ∨ e.getType ∈ d.ch.extensions.map ClientExtension.getType
  alpn : ∀ p, ServerExtension.protocols [p] ∈ d.sh.extensions → p ∈ cfg.alpn
  points : ∀ l, ServerExtension.ecPointFormats l ∈ d.sh.extensions → 0 ∈ l
  scts : ∀ l, d.scts = some l ↔ ServerExtension.signedCertificateTimestamp l ∈ d.sh.extensions
  sctsValid : ∀ l, d.scts = some l → l ≠ [] ∧ [] ∉ l

/-- The certificate status is only sent if the server said so in its hello. -/
def Status (d : Session) : Prop :=
  d.status.isSome → ∃ e ∈ d.sh.extensions, e.getType = 0x0005

/-- The key exchange message can be read. -/
def Kx (d : Session) : Prop := unwrapEcdhe d.kxBytes = some d.kx

/-- The signature schemes with RSA: RFC 8446, section 4.2.3. -/
def rsaSchemes : List UInt16 := [0x0201, 0x0401, 0x0501, 0x0601, 0x0804, 0x0805, 0x0806]

/-- The server's certificates are accepted for its name at the time of the handshake, and the key of the first one made the
signature over the two randoms and the server's ephemeral key. -/
structure Verified (cfg : ClientCfg) (d : Session) : Prop where
  certificate : ∃ leaf intermediates, d.chain = leaf :: intermediates ∧
    cfg.verifyCert leaf intermediates cfg.serverName (d.scts.getD []) d.ocsp d.now = .ok () ∧
    cfg.verifySig (d.random ++ d.sh.random ++ d.params) leaf d.kx.dss = .ok ()
  scheme : d.kx.dss.scheme ∈ rsaSchemes ↔ d.sh.cipherSuite = 0xc02f

/-- Everything about the server that is checked before the leader is given its key. -/
structure ServerOk (cfg : ClientCfg) (d : Session) : Prop where
  offer : d.Offer cfg
  choice : d.Choice cfg
  status : d.Status
  kx : d.Kx
  verified : d.Verified cfg
  group : d.share.group = d.kx.namedGroup

end Session

/-- A whole handshake with an authenticated server has taken place. -/
def Authenticated (cfg : ClientCfg) (log : List Ev) : Prop :=
  ∃ d : Session, d.ServerOk cfg ∧ d.script cfg <+: significant log

/-- Messages by which the client tells who it is are sent after the server's certificates and signature were accepted, if the server
has asked for them, and are those of the certificate that was chosen. -/
def Disclosed (cfg : ClientCfg) (pre : List Ev) (m : MessagePayload) : Prop :=
  (∀ typ chain, m = .handshake ⟨typ, .certificate chain⟩ → ∃ d : Session, d.Offer cfg ∧ d.Choice cfg ∧ d.Status ∧ d.Kx ∧ d.Verified cfg ∧
    significant pre = d.upToDone ++ [.now d.now] ∧ d.request.isSome ∧ chain = (d.identity cfg).elim [] (·.1)) ∧
  (∀ typ dss, m = .handshake ⟨typ, .certificateVerify dss⟩ → ∃ d : Session, d.ServerOk cfg ∧
    (∃ chain, d.identity cfg = some (chain, dss.scheme)) ∧
    significant pre = d.upToClientKx cfg ++ [.sign dss.scheme (transcriptOf (d.upToClientKx cfg)) (.ok dss.sig)])

/-- What may happen after `pre`. -/
def Allowed (cfg : ClientCfg) (pre : List Ev) : Ev → Prop
  -- Application data is delivered after a whole handshake.
  | .deliver _ => Authenticated cfg pre
  -- Application data is sent after a whole handshake, and nothing is given to the leader to send before it has the keys.
  | .pushOut m _ => (m.typ = .applicationData → Authenticated cfg pre) ∧ ∃ d : Session, d.ServerOk cfg ∧ d.upToPrepared cfg <+: significant pre
  -- Records are given to the leader after the server's change of cipher spec.
  | .pushIn _ _ => ∃ d : Session, d.ServerOk cfg ∧ d.upToServerCcs cfg <+: significant pre
  -- No record is taken as plaintext after the server's change of cipher spec.
  | .plain _ => Ev.handle .changeCipherSpec ∉ pre
  -- Nothing is sent unencrypted once the leader has the keys.
  | .clear m => (∀ hs, Ev.prepare hs (.ok ()) ∉ pre) ∧ Disclosed cfg pre m
  | .protect _ => ∃ d : Session, d.ServerOk cfg ∧ d.upToPrepared cfg <+: significant pre
  -- The leader is asked for its parts of the handshake in order, each at most once, and with the right arguments.
  | .random _ => ∃ sid, significant pre = [.sessionId (.ok sid)]
  | .keyShare _ => ∃ d : Session, d.Offer cfg ∧ d.Choice cfg ∧ d.Status ∧ d.Kx ∧ d.Verified cfg ∧
      significant pre = d.upToClientCert cfg
  -- The client signs the messages of a handshake with a server that it has accepted.
  | .sign scheme message _ => ∃ d : Session, d.ServerOk cfg ∧ (∃ chain, d.identity cfg = some (chain, scheme)) ∧
      significant pre = d.upToClientKx cfg ∧ message = transcriptOf (d.upToClientKx cfg)
  | .prepare hs _ => ∃ d : Session, d.ServerOk cfg ∧ significant pre = d.upToCcs cfg ∧ hs = d.serverData
  | .clientVd h _ => ∃ d : Session, d.ServerOk cfg ∧ significant pre = d.upToPrepared cfg ∧
      h = cfg.hash (transcriptOf (d.upToPrepared cfg))
  | .serverVd h _ => ∃ d : Session, d.ServerOk cfg ∧ significant pre = d.upToServerFinished cfg ∧
      h = cfg.hash (transcriptOf (d.upToServerCcs cfg))
  | .startTraffic _ => ∃ d : Session, d.ServerOk cfg ∧ significant pre = d.upToVerified cfg
  | _ => True

/-- Everything that happened was allowed when it happened. -/
def Good (cfg : ClientCfg) (log : List Ev) : Prop := ∀ pre e post, log = pre ++ e :: post → Allowed cfg pre e

end Tlsn.Client
