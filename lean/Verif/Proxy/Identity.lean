import Verif.Proxy.Props
import Verif.Pki.EndToEnd
import Verif.ClientAuth.Model

/-! # The TLS client of the proxy mode, and what a verifier says of the server that it accepted (C123)

crates/tlsn/src/prover/client/proxy/mod.rs: how the prover configures `rustls` in the proxy mode.  `rustls` itself is a parameter: what
is used of it is that it completes a handshake only with a server that it has authenticated (`Shown.Accepted`). -/

namespace Tlsn.Proxy

open Tlsn.Pki (WebPki CertOk Signed CurveOf KeyAlg SigId KeyMakes handshakeOf)
open Tlsn.ClientAuth (TlsClientConfig)
open Hmac (Sha)

/-! ## Model -/

/-- A cipher suite of a provider of `rustls`: its number, and whether it is `SupportedCipherSuite::Tls12`. -/
structure Suite where
  tls12 : Bool
  code : UInt16
  deriving DecidableEq, Repr

/-- `rustls`, as far as its configuration is concerned: the suites and groups of `ring::default_provider`; `PrivateKeyDer::try_from`; and
whether `with_client_auth_cert` accepts a chain with a key. -/
structure Rustls where
  suites : List Suite
  groups : List UInt16
  keyForm : Bytes → Bool
  certified : List Bytes → Bytes → Bool

/-- crates/tlsn/src/prover/client/proxy/mod.rs:30 `ALLOWED_GROUPS`: secp256r1. -/
def allowedGroups : List UInt16 := [0x0017]

/-- crates/tlsn/src/prover/client/proxy/mod.rs:31-34 `ALLOWED_SUITES`: ECDHE with AES-128-GCM-SHA256, with RSA and with ECDSA. -/
def allowedSuites : List UInt16 := [0xc02f, 0xc02b]

/-- `rustls::ClientConfig`, by what is set here. -/
structure RustlsConfig where
  roots : List Bytes
  versions : List TlsVersion
  suites : List Suite
  groups : List UInt16
  clientAuth : Option (List Bytes × Bytes)
  resumption : Bool
  deriving DecidableEq, Repr

/-- The errors of crates/tlsn/src/prover/client/proxy/mod.rs:300-351 `create_client_config`. -/
inductive ProxyConfigError where
  | root (cert : Bytes)
  | versions
  | key
  | clientAuth
  deriving DecidableEq, Repr

/-- crates/tlsn/src/prover/client/proxy/mod.rs:76-88: the suites and groups of the provider that are used. -/
def Rustls.restricted (R : Rustls) : List Suite × List UInt16 :=
  (R.suites.filter fun s => s.tls12 && allowedSuites.contains s.code, R.groups.filter allowedGroups.contains)

/-- crates/tlsn/src/prover/client/proxy/mod.rs:300-351 `create_client_config`, with the provider of 74-93.  `with_protocol_versions` of `rustls` fails if no suite of
the version is left, or no group. -/
def createProxyConfig (P : WebPki) (R : Rustls) (c : TlsClientConfig) : Except ProxyConfigError RustlsConfig :=
  let provider := R.restricted
  match P.anchors c.rootStore with
  | .error cert => .error (.root cert)
  | .ok roots =>
    if provider.1.all (fun s => !s.tls12) || provider.2.isEmpty then .error .versions
    else
      match c.clientAuth with
      | none => .ok ⟨roots, [.v12], provider.1, provider.2, none, false⟩
      | some (chain, key) =>
        if !R.keyForm key then .error .key
        else if !R.certified chain key then .error .clientAuth
        else .ok ⟨roots, [.v12], provider.1, provider.2, some (chain, key), false⟩

/-! ## Specification -/

/-- What a server shows of itself in a handshake. -/
structure Shown where
  clientRandom : Vector Byte 32
  serverRandom : Vector Byte 32
  certs : List Bytes
  key : Bytes
  scheme : UInt16
  sig : Bytes
  deriving DecidableEq

/-- It is what the messages of the handshake say: the first server hello (which is not a hello retry request), the first certificate
message and the first server key exchange, with the random of the client hello. -/
structure Shown.OnWire (s : Shown) (f : Flights) : Prop where
  clientHello : ∃ cv rest, cv.length = 2 ∧ f.clientHello = cv ++ (s.clientRandom.toList ++ rest)
  serverHello : ∃ v before rest after, f.server = before ++ (0x02, helloVersion v ++ (s.serverRandom.toList ++ rest)) :: after ∧
    s.serverRandom.toList ≠ helloRetryRandom ∧ ∀ m ∈ before, m.1 = 0x02 → (m.2.drop 2).take 32 = helloRetryRandom
  certificate : FirstOf f.server 0x0b (lengthPrefixed 3 (s.certs.map (lengthPrefixed 3)).flatten) ∧ ∀ c ∈ s.certs, c.length < 2 ^ 24
  keyExchange : FirstOf f.server 0x0c (keyExchangeBody s.key s.scheme.toNat s.sig) ∧ s.key.length < 2 ^ 8 ∧ s.sig.length < 2 ^ 16

/-- What `rustls` checks of a server before it completes a handshake of TLS 1.2 (RFC 5246, section 7.4.2 and RFC 8422, section 5.4): the
certificates lead to a root and are for the name at the time, and the key of the first one signed the randoms and the key exchange. -/
def Shown.Accepted (s : Shown) (P : WebPki) (roots : List Bytes) (name : ServerName) (now : Nat) : Prop :=
  ∃ leaf is, s.certs = leaf :: is ∧ CertOk P roots leaf is name now ∧
    Signed P leaf (s.clientRandom.toList ++ (s.serverRandom.toList ++ ([0x03, 0x00, 0x17] ++ lengthPrefixed 1 s.key))) s.scheme s.sig

/-! ## Properties -/

/-- **C123** A configuration for the proxy mode is used as it was given: it is made if and only if every certificate of the root store
can be a trust anchor, the provider has a suite and a group that are allowed, and the key of the client can be read and fits its
certificates; it trusts exactly these roots and shows exactly this identity, speaks TLS 1.2 only, with the two suites and the one group
that the verifier can check, and resumes no session. -/
theorem C123_config (P : WebPki) (R : Rustls) (c : TlsClientConfig) :
    ((∃ cfg, createProxyConfig P R c = .ok cfg) ↔ (∀ x ∈ c.rootStore, (P.anchor x).isSome) ∧
      (∃ s ∈ R.suites, s.tls12 = true ∧ (s.code = 0xc02f ∨ s.code = 0xc02b)) ∧ 0x0017 ∈ R.groups ∧
      ∀ chain key, c.clientAuth = some (chain, key) → R.keyForm key = true ∧ R.certified chain key = true) ∧
    (∀ cfg, createProxyConfig P R c = .ok cfg → c.rootStore.map P.anchor = cfg.roots.map some ∧ cfg.versions = [.v12] ∧
      (∀ s, s ∈ cfg.suites ↔ s ∈ R.suites ∧ s.tls12 = true ∧ (s.code = 0xc02f ∨ s.code = 0xc02b)) ∧
      (∀ g, g ∈ cfg.groups ↔ g ∈ R.groups ∧ g = 0x0017) ∧ cfg.clientAuth = c.clientAuth ∧ cfg.resumption = false) := by
  have hs : ∀ s, s ∈ R.restricted.1 ↔ s ∈ R.suites ∧ s.tls12 = true ∧ (s.code = 0xc02f ∨ s.code = 0xc02b) := by
    intro s
    simp [Rustls.restricted, allowedSuites]
  have hg : ∀ g, g ∈ R.restricted.2 ↔ g ∈ R.groups ∧ g = 0x0017 := by
    intro g
    simp [Rustls.restricted, allowedGroups]
  have hv : (R.restricted.1.all (fun s => !s.tls12) || R.restricted.2.isEmpty) = false ↔
      (∃ s ∈ R.suites, s.tls12 = true ∧ (s.code = 0xc02f ∨ s.code = 0xc02b)) ∧ 0x0017 ∈ R.groups := by
    rw [Bool.or_eq_false_iff, List.all_eq_false, List.isEmpty_eq_false_iff_exists_mem]
    constructor
    · rintro ⟨⟨s, h1, -⟩, g, h2⟩
      obtain ⟨h2, rfl⟩ := (hg g).1 h2
      exact ⟨⟨s, (hs s).1 h1⟩, h2⟩
    · rintro ⟨⟨s, h1, h2, h3⟩, h4⟩
      exact ⟨⟨s, (hs s).2 ⟨h1, h2, h3⟩, by simp [h2]⟩, 0x0017, (hg _).2 ⟨h4, rfl⟩⟩
  have ha : (∃ as, P.anchors c.rootStore = .ok as) ↔ ∀ x ∈ c.rootStore, (P.anchor x).isSome := by
    constructor
    · rintro ⟨as, h⟩ x hx
      have : P.anchor x ∈ as.map some := Pki.anchors_ok.1 h ▸ List.mem_map_of_mem hx
      obtain ⟨a, -, ha⟩ := List.mem_map.1 this
      rw [← ha]
      rfl
    · intro h
      cases hr : P.anchors c.rootStore with
      | ok as => exact ⟨as, rfl⟩
      | error e =>
        obtain ⟨h1, h2⟩ := (Pki.C107_roots P c.rootStore).2 e hr
        have := h e h1
        rw [h2] at this
        cases this
  have shape : createProxyConfig P R c = match P.anchors c.rootStore with
      | .error cert => .error (.root cert)
      | .ok roots =>
        if R.restricted.1.all (fun s => !s.tls12) || R.restricted.2.isEmpty then .error .versions
        else
          match c.clientAuth with
          | none => .ok ⟨roots, [.v12], R.restricted.1, R.restricted.2, none, false⟩
          | some (chain, key) =>
            if !R.keyForm key then .error .key
            else if !R.certified chain key then .error .clientAuth
            else .ok ⟨roots, [.v12], R.restricted.1, R.restricted.2, some (chain, key), false⟩ := rfl
  have full : ∀ cfg, createProxyConfig P R c = .ok cfg ↔ P.anchors c.rootStore = .ok cfg.roots ∧
      (R.restricted.1.all (fun s => !s.tls12) || R.restricted.2.isEmpty) = false ∧
      (∀ chain key, c.clientAuth = some (chain, key) → R.keyForm key = true ∧ R.certified chain key = true) ∧
      cfg = ⟨cfg.roots, [.v12], R.restricted.1, R.restricted.2, c.clientAuth, false⟩ := by
    intro cfg
    rw [shape]
    cases hr : P.anchors c.rootStore with
    | error e => simp
    | ok roots =>
      cases hb : (R.restricted.1.all (fun s => !s.tls12) || R.restricted.2.isEmpty) with
      | true => simp
      | false =>
        obtain ⟨a1, a2, a3, a4, a5, a6⟩ := cfg
        cases hc : c.clientAuth with
        | none =>
          simp only [Bool.false_eq_true, if_false, Except.ok.injEq, RustlsConfig.mk.injEq, true_and, reduceCtorEq, false_implies,
            implies_true]
          constructor
          · rintro ⟨rfl, rfl, rfl, rfl, rfl, rfl⟩; exact ⟨rfl, rfl, rfl, rfl, rfl, rfl⟩
          · rintro ⟨rfl, rfl, rfl, rfl, rfl, rfl⟩; exact ⟨rfl, rfl, rfl, rfl, rfl, rfl⟩
        | some x =>
          obtain ⟨chain, key⟩ := x
          cases hk : R.keyForm key with
          | false => simp [hk]
          | true =>
            cases hq : R.certified chain key with
            | false => simp [hk, hq]
            | true =>
              simp only [hk, hq, Bool.not_true, Bool.false_eq_true, if_false, Except.ok.injEq, RustlsConfig.mk.injEq, true_and,
                Option.some.injEq, Prod.mk.injEq]
              constructor
              · rintro ⟨rfl, rfl, rfl, rfl, rfl, rfl⟩
                exact ⟨rfl, fun _ _ h => by rw [← h.1, ← h.2, hk, hq]; exact ⟨rfl, rfl⟩, rfl, rfl, rfl, rfl, rfl⟩
              · rintro ⟨rfl, -, rfl, rfl, rfl, rfl, rfl⟩; exact ⟨rfl, rfl, rfl, rfl, rfl, rfl⟩
  constructor
  · constructor
    · rintro ⟨cfg, h⟩
      obtain ⟨h1, h2, h3, -⟩ := (full cfg).1 h
      obtain ⟨h4, h5⟩ := hv.1 h2
      exact ⟨ha.1 ⟨_, h1⟩, h4, h5, h3⟩
    · rintro ⟨h1, h2, h3, h4⟩
      obtain ⟨as, h1⟩ := ha.2 h1
      exact ⟨_, (full ⟨as, [.v12], R.restricted.1, R.restricted.2, c.clientAuth, false⟩).2 ⟨h1, hv.2 ⟨h2, h3⟩, h4, rfl⟩⟩
  · intro cfg h
    obtain ⟨h1, -, -, h4⟩ := (full cfg).1 h
    rw [h4]
    exact ⟨Pki.anchors_ok.1 h1, rfl, hs, hg, rfl, rfl⟩

/-- The scheme of a signature that verifies names the algorithm that is recorded in the proxy mode. -/
theorem signed_scheme {P : WebPki} {env : TtEnv} (hc : CurveOf P env) {leaf message sig : Bytes} {scheme : UInt16}
    (h : Signed P leaf message scheme sig) : ∃ alg, SchemeIs (env.curve leaf) scheme.toNat alg ∧
      P.keyAlg leaf = some (Pki.ringAlg alg).key ∧ P.raw leaf (Pki.ringAlg alg).sig message sig = true := by
  obtain ⟨-, key, kind, h1, h2, h3, h4⟩ := h
  cases h2 <;> cases h3
  · exact ⟨.ecdsaP256Sha256, .ecdsaP256Sha256 ((hc leaf).1 h1), h1, h4⟩
  · exact ⟨.ecdsaP384Sha256, .ecdsaP384Sha256 ((hc leaf).2 h1), h1, h4⟩
  · exact ⟨.ecdsaP256Sha384, .ecdsaP256Sha384 ((hc leaf).1 h1), h1, h4⟩
  · exact ⟨.ecdsaP384Sha384, .ecdsaP384Sha384 ((hc leaf).2 h1), h1, h4⟩
  · exact ⟨.ed25519, .ed25519, h1, h4⟩
  · exact ⟨.rsaPkcs1Sha256, .rsaPkcs1Sha256, h1, h4⟩
  · exact ⟨.rsaPkcs1Sha384, .rsaPkcs1Sha384, h1, h4⟩
  · exact ⟨.rsaPkcs1Sha512, .rsaPkcs1Sha512, h1, h4⟩
  · exact ⟨.rsaPssSha256, .rsaPssSha256, h1, h4⟩
  · exact ⟨.rsaPssSha384, .rsaPssSha384, h1, h4⟩
  · exact ⟨.rsaPssSha512, .rsaPssSha512, h1, h4⟩

theorem params_eq (key : Bytes) (h : key.length < 2 ^ 8) :
    ([0x03, 0x00, 0x17] ++ lengthPrefixed 1 key) = (⟨key⟩ : ServerEphemKey).kxParams := by
  have : key.length / 256 ^ 0 % 256 = key.length := by omega
  simp only [lengthPrefixed, ServerEphemKey.kxParams, beBytes, this, List.cons_append, List.nil_append]

/-- What a transcript made of the bytes on the wire says of a server that was accepted. -/
theorem accepted_data {P : WebPki} {env : TtEnv} (hcurve : CurveOf P env) {roots : List Bytes} {name : ServerName} {now : Nat}
    {b : TtBuilder} {sentB recvB : Bytes} (h1 : b.tlsSent = some sentB) (h2 : b.tlsRecv = some recvB)
    (h3 : b.certificateBinding = none) (h4 : b.serverSignature = none) (h5 : b.serverCertChain = none) {t : TlsTranscript}
    (hb : b.build env = .ok t) {sent recv : List OpaqueMessage} {f : Flights} (hs : RecordStream sentB sent)
    (hr : RecordStream recvB recv) (hf : IsHandshake sent recv f) {s : Shown} (hw : s.OnWire f) (ha : s.Accepted P roots name now) :
    ∃ leaf is alg, s.certs = leaf :: is ∧ P.nameOk leaf name = true ∧ P.parses leaf = true ∧
      t.certificateBinding = ⟨s.clientRandom, s.serverRandom, ⟨s.key⟩⟩ ∧ t.serverCertChain = some s.certs ∧
      t.serverSignature = some ⟨alg, s.sig⟩ ∧ P.keyAlg leaf = some (Pki.ringAlg alg).key ∧
      P.raw leaf (Pki.ringAlg alg).sig (s.clientRandom.toList ++ (s.serverRandom.toList ++ (⟨s.key⟩ : ServerEphemKey).kxParams))
        s.sig = true := by
  obtain ⟨sent', recv', f', v, d, b1, b2, b3, b4, b5, -, -, b6, b7, b8, -⟩ := (build_raw_iff env b _ _ h1 h2 t).1 hb
  obtain rfl := recordStream_unique b1 hs
  obtain rfl := recordStream_unique b2 hr
  obtain rfl := handshake_unique b3 hf
  obtain ⟨leaf, is, c1, ⟨c2, -, c3⟩, c4⟩ := ha
  obtain ⟨alg, e1, e2, e3⟩ := signed_scheme hcurve c4
  obtain ⟨v', before, rest, after, w1, w2, w3⟩ := hw.serverHello
  have hd : WireFields env f' v' ⟨s.certs, alg, s.sig, s.clientRandom, s.serverRandom, ⟨s.key⟩⟩ :=
    ⟨hw.clientHello, ⟨before, rest, after, w1, w2, w3⟩, hw.certificate,
      ⟨s.scheme.toNat, hw.keyExchange.1, s.scheme.toNat_lt, hw.keyExchange.2.1, hw.keyExchange.2.2, by rw [c1]; exact e1⟩⟩
  obtain ⟨-, rfl⟩ := C67_unique env f' v v' _ _ b5 hd
  rw [h3] at b6
  rw [h4] at b7
  rw [h5] at b8
  refine ⟨leaf, is, alg, c1, c3, c2, b6, b8, b7, e2, ?_⟩
  rw [← params_eq s.key hw.keyExchange.2.1]
  exact e3

/-- **C123** In the proxy mode, for a session in which the prover's client authenticated the server and which the verifier accepted: the
handshake data that the prover shows makes the verifier, if it has the same root store, name the server, if and only if the certificates
are still valid at the verifier's time of the session; otherwise the verifier reports an invalid certificate.  This holds for all kinds
of keys. -/
theorem C123_identity (P : WebPki) (R : Rustls) (c : TlsClientConfig) (cfg : RustlsConfig) (hcfg : createProxyConfig P R c = .ok cfg)
    (S : Sha) (env : TtEnv) (hcurve : CurveOf P env) (aes : AesFn) (fill : Nat → Byte) (ms : Bytes) (es : List (Peer × IoEvent))
    (hsha : ∀ b, (env.sha256 b).length = 32) (hms : ms.length = 48) (com : Committed)
    (hv : verifierRun S env aes fill ms es = some (.ok com)) (time : Nat) (traffic : TlsBytes)
    (h1 : traffic.tlsSent = (forward es).sent.taken) (h2 : traffic.tlsRecv = (forward es).recv.taken)
    (p p' : Party) (t : TlsTranscript) (hp : proverFinalize S env p ms time traffic = .ok (p', t))
    (sent recv : List OpaqueMessage) (f : Flights) (hs : RecordStream traffic.tlsSent sent) (hr : RecordStream traffic.tlsRecv recv)
    (hf : IsHandshake sent recv f) (s : Shown) (hw : s.OnWire f) (now : Nat) (ha : s.Accepted P cfg.roots c.serverName now) :
    ∃ v d leaf is, P.newVerifier c.rootStore = .ok v ∧ handshakeOf t = some d ∧ s.certs = leaf :: is ∧
      (P.path cfg.roots leaf is com.transcript.time = true →
        checkIdentity v (viewOf com.transcript) (some (c.serverName, d)) = .ok (some c.serverName)) ∧
      (P.path cfg.roots leaf is com.transcript.time = false →
        checkIdentity v (viewOf com.transcript) (some (c.serverName, d)) = .err (.certificate .serverCert)) := by
  have hroots := Pki.anchors_ok.2 ((C123_config P R c).2 cfg hcfg).1
  obtain ⟨-, -, -, -, -, hg, -⟩ := C89_accepted S env aes fill ms es hsha hms com hv
  obtain ⟨leaf, is, alg, a1, a2, a3, a4, a5, a6, a7, a8⟩ :=
    accepted_data hcurve (b := verifierBuilder _ _ _) rfl rfl rfl rfl rfl hg.built (h1 ▸ hs) (h2 ▸ hr) hf hw ha
  have hpb : (proverBuilder time traffic).build env = .ok t := by
    unfold proverFinalize at hp
    cases hb : (proverBuilder time traffic).build env with
    | err e => rw [hb] at hp; cases hp
    | panic => rw [hb] at hp; cases hp
    | ok t' =>
      rw [hb] at hp
      simp only at hp
      split at hp
      · cases hp
      · obtain ⟨q, -, h⟩ := Outcome.bind_eq_ok.1 hp
        cases h
        rfl
  obtain ⟨leaf', is', alg', e1, -, -, e4, e5, e6, e7, e8⟩ :=
    accepted_data hcurve (b := proverBuilder time traffic) rfl rfl rfl rfl rfl hpb hs hr hf hw ha
  rw [a1] at e1
  cases e1
  refine ⟨P.certVerifier cfg.roots, ⟨s.certs, alg', s.sig, s.clientRandom, s.serverRandom, ⟨s.key⟩⟩, leaf, is, ?_, ?_, a1, ?_, ?_⟩
  · rw [WebPki.newVerifier, hroots]
  · simp only [handshakeOf, e4, e5, e6]
  · intro hpath
    have hbind : (viewOf com.transcript).binding = some ⟨s.key⟩ := by rw [viewOf, a4]
    have : HandshakeData.verify ⟨s.certs, alg', s.sig, s.clientRandom, s.serverRandom, ⟨s.key⟩⟩ (P.certVerifier cfg.roots)
        (viewOf com.transcript).time ⟨s.key⟩ c.serverName = .ok () :=
      (Pki.C107_verifier P cfg.roots _ _ _ _).2 ⟨rfl, leaf, is, a1, ⟨a3, hpath, a2⟩, e7, e8⟩
    simp only [checkIdentity, hbind, this]
  · intro hpath
    have hbind : (viewOf com.transcript).binding = some ⟨s.key⟩ := by rw [viewOf, a4]
    have : HandshakeData.verify ⟨s.certs, alg', s.sig, s.clientRandom, s.serverRandom, ⟨s.key⟩⟩ (P.certVerifier cfg.roots)
        (viewOf com.transcript).time ⟨s.key⟩ c.serverName = .error .serverCert := by
      simp [HandshakeData.verify, a1, CertVerifier.verifyServerCert, WebPki.certVerifier, viewOf, hpath]
    simp only [checkIdentity, hbind, this]

/-! ## A concrete session -/

namespace Example

/-- The server's certificate is `[0x77, 0x78]`, the root is `[7]`, the path is valid until the second 1700000000. -/
def pki : WebPki where
  parses c := c ≠ []
  keyAlg c := if c = [0x77, 0x78] then some .p256 else none
  raw _ _ message sig := sig = [9, 8] ∧ message.length = 71
  anchor c := if c = [] then none else some c
  path as leaf is t := as = [[7]] ∧ leaf = [0x77, 0x78] ∧ is = [] ∧ t ≤ 1700000000
  nameOk _ n := n = [0x73]
  sct _ _ _ _ := .ok ()

def rustls : Rustls := ⟨[⟨false, 0x1301⟩, ⟨true, 0xc030⟩, ⟨true, 0xc02f⟩, ⟨true, 0xc02b⟩], [0x001d, 0x0017], fun k => k ≠ [], fun c _ => c ≠ []⟩

/-- Configurations that are used and some that are not. -/
example : createProxyConfig pki rustls ⟨[0x73], [[7]], some ([[1]], [2])⟩ =
      .ok ⟨[[7]], [.v12], [⟨true, 0xc02f⟩, ⟨true, 0xc02b⟩], [0x0017], some ([[1]], [2]), false⟩ ∧
    createProxyConfig pki rustls ⟨[0x73], [[7], []], none⟩ = .error (.root []) ∧
    createProxyConfig pki rustls ⟨[0x73], [[7]], some ([[1]], [])⟩ = .error .key ∧
    createProxyConfig pki rustls ⟨[0x73], [[7]], some ([], [2])⟩ = .error .clientAuth ∧
    createProxyConfig pki { rustls with groups := [0x001d] } ⟨[0x73], [[7]], none⟩ = .error .versions ∧
    createProxyConfig pki { rustls with suites := [⟨false, 0xc02f⟩] } ⟨[0x73], [[7]], none⟩ = .error .versions := by decide +kernel

example : CurveOf pki env := by
  intro cert
  refine ⟨fun _ => rfl, ?_⟩
  simp only [pki]
  split <;> simp

def shown : Shown := ⟨Vector.replicate 32 0xaa, Vector.replicate 32 0xbb, [[0x77, 0x78]], [4, 5, 6], 0x0403, [9, 8]⟩

/-- What the server of the session shows is on the wire and is accepted. -/
example : shown.OnWire (TtExample.flights []) ∧ shown.Accepted pki [[7]] [0x73] 1699999999 := by
  refine ⟨⟨⟨[3, 3], [0, 0, 2, 0xc0, 0x2f, 1, 0, 0, 4, 0, 0x17, 0, 0], rfl, by decide +kernel⟩,
    ⟨.v12, [], [0, 0xc0, 0x2f, 0, 0, 0], [(0x0b, TtExample.certificate), (0x0c, TtExample.keyExchange), (0x0e, [])], by decide +kernel,
      by decide +kernel, fun m hm => nomatch hm⟩,
    ⟨⟨[(0x02, TtExample.serverHello)], [(0x0c, TtExample.keyExchange), (0x0e, [])], by decide +kernel, by decide +kernel⟩, by decide +kernel⟩,
    ⟨⟨[(0x02, TtExample.serverHello), (0x0b, TtExample.certificate)], [(0x0e, [])], by decide +kernel, by decide +kernel⟩,
      by decide +kernel⟩⟩, ?_⟩
  exact ⟨[0x77, 0x78], [], rfl, ⟨by decide +kernel, by decide +kernel, by decide +kernel⟩, by decide +kernel, .p256, .ecdsaSha256,
    by decide +kernel, .ecdsa256, .p256_256, by decide +kernel⟩

/-- The whole session: the prover makes its transcript, and the verifier names the server, or not if the certificate has expired. -/
example :
    let run := fun start => match verifierRun toySha env exAes (fun _ => 0) secret
        (wellBehaved .prover start [sent.flatMap frameBytes] ++ wellBehaved .server 1700000001 (recv.map frameBytes)),
      Party.alloc toySha exAes >>= fun p => proverFinalize toySha env p secret 1699999999
        ⟨sent.flatMap frameBytes, recv.flatMap frameBytes, [71, 69, 84], [50, 48, 48]⟩ with
      | some (.ok com), .ok (_, t) => (handshakeOf t).map fun d =>
        checkIdentity (pki.certVerifier [[7]]) (viewOf com.transcript) (some ([0x73], d))
      | _, _ => none
    run 1700000000 = some (.ok (some [0x73])) ∧ run 1700000001 = some (.err (.certificate .serverCert)) := by decide +kernel

end Example

end Tlsn.Proxy
