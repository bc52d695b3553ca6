import Verif.Client.Base

/-! # The states of the TLS 1.2 handshake: crates/mpc-tls/src/client/{hs,tls12,check}.rs -/

namespace Tlsn.Client

/-! ## Cipher suites and signature schemes -/

/-- The cipher suites of crates/tls-core/src/suites/mod.rs:160-178 `ALL_CIPHER_SUITES`: ECDHE_ECDSA and ECDHE_RSA with AES-128-GCM
and SHA-256. -/
def cipherSuites : List UInt16 := [0xc02b, 0xc02f]

/-- crates/tls-core/src/msgs/enums.rs `SignatureAlgorithm`, as far as it is told apart here. -/
inductive SigAlg where
  | rsa
  | ecdsa
  | unknown
  deriving DecidableEq, Repr

/-- crates/tls-core/src/msgs/handshake.rs:216-230 `DecomposedSignatureScheme::sign`. -/
def schemeAlg (scheme : UInt16) : SigAlg :=
  if scheme ∈ [0x0201, 0x0401, 0x0501, 0x0601, 0x0804, 0x0805, 0x0806] then .rsa
  else if scheme ∈ [0x0403, 0x0503, 0x0603] then .ecdsa
  else .unknown

/-- The signature schemes of a suite: crates/tls-core/src/suites/tls12.rs:104-119 `TLS12_ECDSA_SCHEMES`, `TLS12_RSA_SCHEMES`. -/
def suiteSchemes (suite : UInt16) : List UInt16 :=
  if suite = 0xc02b then [0x0807, 0x0603, 0x0503, 0x0403] else [0x0806, 0x0805, 0x0804, 0x0601, 0x0501, 0x0401]

/-- crates/tls-core/src/suites/mod.rs:148-156 `usable_for_signature_algorithm`. -/
def suiteUsable (suite : UInt16) (alg : SigAlg) : Bool := (suiteSchemes suite).any fun s => schemeAlg s == alg

/-! ## The server hello -/

/-- crates/tls-core/src/msgs/handshake.rs:1725-1738 `has_duplicate_extension`; `seen` is the set of types so far. -/
def duplicateFrom (seen : List UInt16) : List ServerExtension → Bool
  | [] => false
  | e :: es => if e.getType ∈ seen then true else duplicateFrom (e.getType :: seen) es

/-- crates/tls-core/src/msgs/handshake.rs:1740-1742 `find_extension`. -/
def findExt (h : ServerHello) (typ : UInt16) : Option ServerExtension := h.extensions.find? fun e => e.getType == typ

/-- crates/tls-core/src/msgs/handshake.rs:1286-1292 `get_supported_versions`. -/
def supportedVersion (h : ServerHello) : Option ProtocolVersion :=
  match findExt h 0x002b with
  | some (.supportedVersions v) => some v
  | _ => none

/-- crates/tls-core/src/msgs/handshake.rs:1744-1750 `get_alpn_protocol`, with 374-380 `as_single_slice`. -/
def alpnOf (h : ServerHello) : Option Bytes :=
  match findExt h 0x0010 with
  | some (.protocols [p]) => some p
  | _ => none

/-- crates/tls-core/src/msgs/handshake.rs:1265-1271 `get_ecpoints_extension`. -/
def ecPointsOf (h : ServerHello) : Option (List UInt8) :=
  match findExt h 0x000b with
  | some (.ecPointFormats l) => some l
  | _ => none

/-- crates/tls-core/src/msgs/handshake.rs:1278-1284 `get_sct_list`. -/
def sctsOf (h : ServerHello) : Option (List Bytes) :=
  match findExt h 0x0012 with
  | some (.signedCertificateTimestamp l) => some l
  | _ => none

/-- crates/mpc-tls/src/client/hs.rs:606-621 `server_sent_unsolicited_extensions`, with the list of allowed ones of crates/mpc-tls/src/client/hs.rs:320. -/
def unsolicited (sent : List UInt16) (h : ServerHello) : Bool :=
  h.extensions.any fun e => !sent.contains e.getType && !([0xff01] : List UInt16).contains e.getType

/-- crates/mpc-tls/src/client/hs.rs:255-257 `sct_list_is_invalid`. -/
def sctListInvalid (scts : List Bytes) : Bool := scts.isEmpty || scts.any (·.isEmpty)

/-! ## The states -/

/-- crates/mpc-tls/src/client/hs.rs:78-88 `ExpectServerHello`. -/
structure HelloCtx where
  random : Bytes
  buffer : HandshakeHashBuffer
  sentExts : List UInt16

/-- The fields that the states of tls12.rs share: the randoms, the transcript and the cipher suite. -/
structure Ctx where
  clientRandom : Bytes
  serverRandom : Bytes
  transcript : HandshakeHash
  suite : UInt16

/-- crates/tls-core/src/cert.rs:8-12 `ServerCertDetails`. -/
structure CertDetails where
  chain : List Bytes
  ocsp : Bytes
  scts : Option (List Bytes)

/-- crates/tls-core/src/ke.rs:5-8 `ServerKxDetails`. -/
structure KxDetails where
  params : Bytes
  sig : DigitallySigned

/-- crates/mpc-tls/src/client/hs.rs:624-633 `ClientAuthDetails`. -/
inductive ClientAuth where
  | empty
  | verify (chain : List Bytes) (scheme : UInt16)

/-- The implementations of `State`: crates/mpc-tls/src/client/config.rs:160-163, crates/mpc-tls/src/client/hs.rs:78-88, crates/mpc-tls/src/client/tls12.rs:106-808.  Two states that are only entered to handle
the message at hand, `ExpectCertificateStatus` and `ExpectCertificateRequest`, are functions below. -/
inductive HState where
  | initial
  | serverHello (h : HelloCtx)
  | certificate (x : Ctx) (mayStatus : Bool) (scts : Option (List Bytes))
  | statusOrKx (x : Ctx) (scts : Option (List Bytes)) (chain : List Bytes)
  | serverKx (x : Ctx) (cert : CertDetails)
  | doneOrReq (x : Ctx) (cert : CertDetails) (kx : KxDetails)
  | done (x : Ctx) (cert : CertDetails) (kx : KxDetails) (auth : Option ClientAuth)
  | ccs (transcript : HandshakeHash)
  | finished (transcript : HandshakeHash)
  | traffic

/-- crates/mpc-tls/src/client/check.rs:44-77 `inappropriate_message`, `inappropriate_handshake_message`. -/
def inappropriateHs : MessagePayload → CErr
  | .handshake m => .inappropriateHs m.typ
  | m => .inappropriate m.contentType

/-! ## The client hello -/

/-- crates/mpc-tls/src/client/hs.rs:135-137: the server name extension. -/
def sniExtensions (cfg : ClientCfg) : List ClientExtension :=
  match cfg.sni, cfg.enableSni with
  | some name, true => [.serverName [⟨0, .hostName name⟩]]
  | _, _ => []

/-- crates/mpc-tls/src/client/hs.rs:118-168: the extensions. -/
def clientExtensions (cfg : ClientCfg) : List ClientExtension :=
  [.supportedVersions [.tls12], .ecPointFormats [0], .namedGroups [0x0017], .signatureAlgorithms cfg.verifySchemes,
    .certificateStatusRequest (.ocsp [] [])] ++
  sniExtensions cfg ++
  (if cfg.requestScts then [.signedCertificateTimestampRequest] else []) ++
  (if cfg.alpn.isEmpty then [] else [.protocols cfg.alpn])

/-- crates/mpc-tls/src/client/hs.rs:177-187: the client hello; the last cipher suite is `TLS_EMPTY_RENEGOTIATION_INFO_SCSV`. -/
def clientHello (cfg : ClientCfg) (random sessionId : Bytes) : MessagePayload :=
  .handshake ⟨0x01, .clientHello ⟨.tls12, random, sessionId, cipherSuites ++ [0x00ff], [0], clientExtensions cfg⟩⟩

/-- crates/mpc-tls/src/client/hs.rs:34-76 `start_handshake`, with 95-228 `emit_client_hello_for_retry`. -/
def startHandshake (cfg : ClientCfg) (W : World) : M Common HState := do
  let buffer := if cfg.hasClientCerts then HandshakeHashBuffer.new.setClientAuth else HandshakeHashBuffer.new
  let sessionId ← ask W.sessionId .sessionId .core
  let random ← ask W.random .random
  let ch := clientHello cfg random sessionId
  sendMsg W .tls10 ch false
  pure (.serverHello ⟨random, buffer.addMessage ch, (clientExtensions cfg).map (·.getType)⟩)

/-! ## The server's first flight -/

/-- crates/mpc-tls/src/client/hs.rs:275-308: the version of the server hello; `none` if it is refused, with the alert and the error. -/
def versionError (h : ServerHello) : Option (UInt8 × CErr) :=
  let version := if h.legacyVersion = .tls12 then (supportedVersion h).getD h.legacyVersion else h.legacyVersion
  if version = .tls12 then
    if (supportedVersion h).isSome then some (0x2f, .misbehaved "server chose v1.2 using v1.3 extension") else none
  else if version = .tls13 then some (0x46, .incompatible "server's TLS version is disabled in client")
  else some (0x46, .incompatible "server does not support TLS v1.2/v1.3")

/-- crates/mpc-tls/src/client/hs.rs:230-253 `process_alpn_protocol`. -/
def processAlpn (cfg : ClientCfg) (W : World) (proto : Option Bytes) : M Common Unit := do
  M.modify fun c => { c with alpnProtocol := proto }
  match proto with
  | some p => if cfg.alpn.contains p then pure () else illegalParam W "server sent non-offered ALPN protocol"
  | none => pure ()

/-- crates/mpc-tls/src/client/tls12.rs:52-103 `handle_server_hello`. -/
def completeServerHello (x : Ctx) (h : ServerHello) : M Common HState :=
  let mayStatus := (findExt h 0x0005).isSome
  match sctsOf h with
  | some scts =>
    if sctListInvalid scts then M.fail (.misbehaved "server sent invalid SCT list")
    else pure (.certificate x mayStatus (some scts))
  | none => pure (.certificate x mayStatus none)

/-- crates/mpc-tls/src/client/hs.rs:261-416 `handle` for `ExpectServerHello`.  The suite is one of the client's (`find_cipher_suite`, crates/mpc-tls/src/client/config.rs:152-157), all
of which are for TLS 1.2. -/
def handleServerHello (cfg : ClientCfg) (W : World) (s : HelloCtx) (m : MessagePayload) : M Common HState :=
  match m with
  | .handshake ⟨_, .serverHello h⟩ =>
    match versionError h with
    | some (alert, e) => abort W alert e
    | none =>
      if h.compressionMethod ≠ 0 then illegalParam W "server chose non-Null compression"
      else if duplicateFrom [] h.extensions then abort W 0x32 (.misbehaved "server sent duplicate extensions")
      else if unsolicited s.sentExts h then abort W 0x6e (.misbehaved "server sent unsolicited extension")
      else do
        M.modify fun c => { c with negotiated := some .tls12 }
        processAlpn cfg W (alpnOf h)
        if (ecPointsOf h).any fun l => !l.contains 0 then
          abort W 0x28 (.misbehaved "server does not support uncompressed points")
        else if !cipherSuites.contains h.cipherSuite then
          abort W 0x28 (.misbehaved "server chose non-offered ciphersuite")
        else do
          M.modify fun c => { c with suite := some h.cipherSuite }
          completeServerHello ⟨s.random, h.random, (s.buffer.startHash cfg.hash).addMessage m, h.cipherSuite⟩ h
  | m => M.fail (inappropriateHs m)

/-- crates/mpc-tls/src/client/tls12.rs:118-153 `handle` for `ExpectCertificate`. -/
def handleCertificate (x : Ctx) (mayStatus : Bool) (scts : Option (List Bytes)) (m : MessagePayload) : M Common HState :=
  match m with
  | .handshake ⟨_, .certificate chain⟩ =>
    let x := { x with transcript := x.transcript.addMessage m }
    if mayStatus then pure (.statusOrKx x scts chain) else pure (.serverKx x ⟨chain, [], scts⟩)
  | m => M.fail (inappropriateHs m)

/-- The parameters of an ECDHE key exchange: crates/tls-core/src/msgs/handshake.rs:1554-1574, 1640-1655 `Codec for ECParameters`,
`Codec for ServerECDHParams`. -/
def codecEcdhParams : Codec (UInt16 × Bytes) :=
  ((codecU8.check (· == 3)).seq (codecU16.seq codecPayloadU8)).fields (fun p => (p.2.1, p.2.2)) fun e => (3, e.1, e.2)

/-- crates/mpc-tls/src/client/tls12.rs:281-323 `handle` for `ExpectServerKx`. -/
def handleServerKx (W : World) (x : Ctx) (cert : CertDetails) (m : MessagePayload) : M Common HState :=
  match m with
  | .handshake ⟨_, .serverKeyExchange p⟩ =>
    match unwrapEcdhe p with
    | none => abort W 0x32 (.corruptPayload .handshake)
    | some e =>
      pure (.doneOrReq { x with transcript := x.transcript.addMessage m } cert
        ⟨codecEcdhParams.encode (e.namedGroup, e.publicKey), e.dss⟩)
  | m => M.fail (inappropriateHs m)

/-- crates/mpc-tls/src/client/tls12.rs:168-221 `handle` for `ExpectCertificateStatusOrServerKx`, with 235-268 `handle` for `ExpectCertificateStatus`. -/
def handleStatusOrKx (W : World) (x : Ctx) (scts : Option (List Bytes)) (chain : List Bytes) (m : MessagePayload) :
    M Common HState :=
  match m with
  | .handshake ⟨_, .serverKeyExchange _⟩ => handleServerKx W x ⟨chain, [], scts⟩ m
  | .handshake ⟨_, .certificateStatus ocsp⟩ =>
    pure (.serverKx { x with transcript := x.transcript.addMessage m } ⟨chain, ocsp, scts⟩)
  | m => M.fail (inappropriateHs m)

/-! ## The client's flight -/

/-- crates/mpc-tls/src/client/tls12.rs:325-340 `emit_certificate`: the message. -/
def certificateMsg (chain : List Bytes) : MessagePayload := .handshake ⟨0x0b, .certificate chain⟩

/-- crates/mpc-tls/src/client/tls12.rs:342-363 `emit_clientkx`: the message. -/
def clientKxMsg (key : Bytes) : MessagePayload := .handshake ⟨0x10, .clientKeyExchange (codecPayloadU8.encode key)⟩

/-- crates/mpc-tls/src/client/tls12.rs:378-385: the message of `emit_certverify`. -/
def certVerifyMsg (scheme : UInt16) (sig : Bytes) : MessagePayload := .handshake ⟨0x0f, .certificateVerify ⟨scheme, sig⟩⟩

/-- crates/mpc-tls/src/client/tls12.rs:404-413: the message of `emit_finished`. -/
def finishedMsg (vd : Bytes) : MessagePayload := .handshake ⟨0x14, .finished vd⟩

/-- Adds a message to the transcript and sends it unencrypted, as the `emit` functions of crates/mpc-tls/src/client/tls12.rs:325-388 do. -/
def emit (W : World) (t : HandshakeHash) (m : MessagePayload) : M Common HandshakeHash := do
  sendMsg W .tls12 m false
  pure (t.addMessage m)

/-- crates/mpc-tls/src/client/tls12.rs:639-647: the client's certificate, if the server has asked for one. -/
def emitCertificate (W : World) (auth : Option ClientAuth) (t : HandshakeHash) : M Common HandshakeHash :=
  match auth with
  | none => pure t
  | some .empty => emit W t (certificateMsg [])
  | some (.verify chain _) => emit W t (certificateMsg chain)

/-- crates/mpc-tls/src/client/tls12.rs:671-674, with 365-388 `emit_certverify`. -/
def emitCertVerify (W : World) (auth : Option ClientAuth) (t : HandshakeHash) : M Common HandshakeHash :=
  match auth with
  | some (.verify _ scheme) =>
    match t.takeHandshakeBuf with
    | (_, none) => M.fail (.general "Expected transcript")
    | (t, some message) => do
      let sig ← ask (W.sign · scheme message) (.sign scheme message) .core
      emit W t (certVerifyMsg scheme sig)
  | _ => pure t

/-- The clock. -/
def askNow (W : World) : M Common Nat := do
  let c ← M.get
  note (.now (W.now c.log))
  pure (W.now c.log)

/-- crates/mpc-tls/src/client/tls12.rs:582-637: the checks of the certificate and of the signature. -/
def verifyServer (cfg : ClientCfg) (W : World) (x : Ctx) (cert : CertDetails) (kx : KxDetails) : M Common Unit :=
  match cert.chain with
  | [] => M.fail .noCertificates
  | leaf :: intermediates => do
    let now ← askNow W
    match cfg.verifyCert leaf intermediates cfg.serverName (cert.scts.getD []) cert.ocsp now with
    | .error code => abort W 0x2a (.core code)
    | .ok () =>
      if !suiteUsable x.suite (schemeAlg kx.sig.scheme) then M.fail (.misbehaved "peer signed kx with wrong algorithm")
      else
        match cfg.verifySig (x.clientRandom ++ x.serverRandom ++ kx.params) leaf kx.sig with
        | .error code => abort W 0x2a (.core code)
        | .ok () => pure ()

/-- crates/mpc-tls/src/client/tls12.rs:540-707 `handle` for `ExpectServerDone`. -/
def handleServerDone (cfg : ClientCfg) (W : World) (x : Ctx) (cert : CertDetails) (kx : KxDetails) (auth : Option ClientAuth)
    (m : MessagePayload) : M Common HState :=
  match m with
  | .handshake ⟨_, .serverHelloDone⟩ => do
    checkAligned W
    verifyServer cfg W x cert kx
    let t ← emitCertificate W auth (x.transcript.addMessage m)
    match codecEcdhParams.read.whole kx.params with
    | none => abort W 0x32 (.corruptPayload .handshake)
    | some (group, serverKey) => do
      let share ← ask W.keyShare .keyShare
      if share.group ≠ group then M.fail (.misbehaved "peer chose an unsupported group")
      else do
        let t ← emit W t (clientKxMsg share.payload)
        let t ← emitCertVerify W auth t
        sendMsg W .tls12 .changeCipherSpec false
        let hs : HandshakeData := ⟨x.serverRandom, ⟨group, serverKey⟩, cert.chain, cert.ocsp, cert.scts, kx.params, kx.sig⟩
        ask (W.prepare · hs) (.prepare hs)
        M.modify fun c => { c with encrypting := true }
        let vd ← ask (W.clientVd · t.currentHash) (.clientVd t.currentHash)
        sendMsg W .tls12 (finishedMsg vd) true
        pure (.ccs (t.addMessage (finishedMsg vd)))
  | m => M.fail (inappropriateHs m)

/-- crates/mpc-tls/src/client/tls12.rs:433-472 `handle` for `ExpectServerDoneOrCertReq`, with 487-524 `handle` for `ExpectCertificateRequest` and crates/mpc-tls/src/client/hs.rs:636-662
`resolve`. -/
def handleDoneOrReq (cfg : ClientCfg) (W : World) (x : Ctx) (cert : CertDetails) (kx : KxDetails) (m : MessagePayload) :
    M Common HState :=
  match m with
  | .handshake ⟨_, .certificateRequest r⟩ =>
    let auth := match cfg.resolve r.caNames r.sigSchemes with
      | some (chain, scheme) => ClientAuth.verify chain scheme
      | none => .empty
    pure (.done { x with transcript := x.transcript.addMessage m } cert kx (some auth))
  | m => handleServerDone cfg W { x with transcript := x.transcript.abandonClientAuth } cert kx none m

/-! ## The server's second flight, and traffic -/

/-- crates/mpc-tls/src/client/tls12.rs:718-744 `handle` for `ExpectCcs`. -/
def handleCcs (W : World) (t : HandshakeHash) (m : MessagePayload) : M Common HState :=
  match m with
  | .changeCipherSpec => do
    checkAligned W
    M.modify fun c => { c with decrypting := true }
    pure (.finished t)
  | m => M.fail (.inappropriate m.contentType)

/-- crates/mpc-tls/src/client/tls12.rs:755-797 `handle` for `ExpectFinished`. -/
def handleFinished (W : World) (t : HandshakeHash) (m : MessagePayload) : M Common HState :=
  match m with
  | .handshake ⟨_, .finished vd⟩ => do
    checkAligned W
    let expected ← ask (W.serverVd · t.currentHash) (.serverVd t.currentHash)
    if expected = vd then do
      startTraffic W
      pure .traffic
    else abort W 0x33 .decryptError
  | m => M.fail (inappropriateHs m)

/-- crates/mpc-tls/src/client/tls12.rs:808-823 `handle` for `ExpectTraffic`. -/
def handleTraffic (m : MessagePayload) : M Common HState :=
  match m with
  | .applicationData p => do
    takePlaintext p
    pure .traffic
  | m => M.fail (.inappropriate m.contentType)

/-- `State::handle`; crates/mpc-tls/src/client/config.rs:171-177 is `unreachable!`. -/
def handle (cfg : ClientCfg) (W : World) (s : HState) (m : MessagePayload) : M Common HState :=
  match s with
  | .initial => M.panic
  | .serverHello h => handleServerHello cfg W h m
  | .certificate x mayStatus scts => handleCertificate x mayStatus scts m
  | .statusOrKx x scts chain => handleStatusOrKx W x scts chain m
  | .serverKx x cert => handleServerKx W x cert m
  | .doneOrReq x cert kx => handleDoneOrReq cfg W x cert kx m
  | .done x cert kx auth => handleServerDone cfg W x cert kx auth m
  | .ccs t => handleCcs W t m
  | .finished t => handleFinished W t m
  | .traffic => handleTraffic m

end Tlsn.Client
