import Verif.TlsTranscript.RecordLemmas

/-! # Where the fields of a TLS transcript are on the wire -/

namespace Tlsn

/-! ## Specification -/

/-- RFC 5246, section 7.4.1.3 and RFC 8446, section 4.1.3: the version of a server hello. -/
def helloVersion : TlsVersion → Bytes
  | .v12 => [0x03, 0x03]
  | .v13 => [0x03, 0x04]

/-- Signature schemes (RFC 8446 section 4.2.3). In TLS 1.2 the schemes for ECDSA do not name the curve, which is that of the
certificate. -/
inductive SchemeIs (curve : Option EcCurve) : Nat → SignatureAlgorithm → Prop
  | rsaPkcs1Sha256 : SchemeIs curve 0x0401 .rsaPkcs1Sha256
  | rsaPkcs1Sha384 : SchemeIs curve 0x0501 .rsaPkcs1Sha384
  | rsaPkcs1Sha512 : SchemeIs curve 0x0601 .rsaPkcs1Sha512
  | rsaPssSha256 : SchemeIs curve 0x0804 .rsaPssSha256
  | rsaPssSha384 : SchemeIs curve 0x0805 .rsaPssSha384
  | rsaPssSha512 : SchemeIs curve 0x0806 .rsaPssSha512
  | ed25519 : SchemeIs curve 0x0807 .ed25519
  | ecdsaP256Sha256 : curve = some .p256 → SchemeIs curve 0x0403 .ecdsaP256Sha256
  | ecdsaP384Sha256 : curve = some .p384 → SchemeIs curve 0x0403 .ecdsaP384Sha256
  | ecdsaP256Sha384 : curve = some .p256 → SchemeIs curve 0x0503 .ecdsaP256Sha384
  | ecdsaP384Sha384 : curve = some .p384 → SchemeIs curve 0x0503 .ecdsaP384Sha384

/-- The body of a server key exchange for the curve secp256r1 (RFC 8422 section 5.4): the parameters, which are what the
server signs, and the signature with its scheme. -/
def keyExchangeBody (key : Bytes) (scheme : Nat) (sig : Bytes) : Bytes :=
  ([0x03, 0x00, 0x17] ++ lengthPrefixed 1 key) ++ (beBytes 2 scheme ++ lengthPrefixed 2 sig)

/-- The version and the handshake data are those in the messages on the wire: in the client hello, the first server hello
(a hello retry request has the same type and is told apart by its random), the first certificate message and the first
server key exchange. -/
structure WireFields (env : TtEnv) (f : Flights) (v : TlsVersion) (d : HandshakeData) : Prop where
  clientHello : ∃ cv rest, cv.length = 2 ∧ f.clientHello = cv ++ (d.clientRandom.toList ++ rest)
  serverHello : ∃ before rest after, f.server = before ++ (0x02, helloVersion v ++ (d.serverRandom.toList ++ rest)) :: after ∧
    d.serverRandom.toList ≠ helloRetryRandom ∧ ∀ m ∈ before, m.1 = 0x02 → (m.2.drop 2).take 32 = helloRetryRandom
  certificate : FirstOf f.server 0x0b (lengthPrefixed 3 (d.certs.map (lengthPrefixed 3)).flatten) ∧
    ∀ c ∈ d.certs, c.length < 2 ^ 24
  keyExchange : ∃ scheme, FirstOf f.server 0x0c (keyExchangeBody d.serverEphemeralKey.key scheme d.sig) ∧
    scheme < 2 ^ 16 ∧ d.serverEphemeralKey.key.length < 2 ^ 8 ∧ d.sig.length < 2 ^ 16 ∧
    SchemeIs (d.certs.head?.bind env.curve) scheme d.sigAlg

/-! ## Lemmas -/

theorem orParse_eq_ok {α : Type} (o : Option α) (a : α) : orParse o = .ok a ↔ o = some a := by
  cases o <;> simp [orParse]

theorem toRandom_toList {b : Bytes} (h : b.length = 32) : (toRandom b).toList = b := by
  unfold toRandom
  apply List.ext_getElem
  · simp [h]
  · intro i h1 h2
    simp [List.getD_eq_getElem?_getD, h2]

theorem toRandom_of_toList (v : Vector Byte 32) : toRandom v.toList = v := by
  apply Vector.toList_inj.1
  exact toRandom_toList (by simp)

theorem ofProtocol_iff {p : ProtocolVersion} (hp : p.Canonical) (v : TlsVersion) :
    TlsVersion.ofProtocol p = some v ↔ codecVersion.encode p = helloVersion v := by
  have enc : ∀ p : ProtocolVersion, codecVersion.encode p = beBytes 2 p.getU16.toNat := fun _ => rfl
  have key : ∀ w : ProtocolVersion, w.Canonical → (beBytes 2 p.getU16.toNat = beBytes 2 w.getU16.toNat ↔ p = w) := by
    intro w hw
    constructor
    · intro h
      have := beBytes_inj (k := 2) (by have := p.getU16.toNat_lt; omega) (by have := w.getU16.toNat_lt; omega) h
      rw [← hp, ← hw, UInt16.toNat_inj.1 this]
    · rintro rfl; rfl
  have e12 : helloVersion .v12 = beBytes 2 ProtocolVersion.tls12.getU16.toNat := by decide
  have e13 : helloVersion .v13 = beBytes 2 ProtocolVersion.tls13.getU16.toNat := by decide
  rw [enc]
  cases v
  · rw [e12, key .tls12 rfl]
    cases p <;> simp [TlsVersion.ofProtocol]
  · rw [e13, key .tls13 rfl]
    cases p <;> simp [TlsVersion.ofProtocol]

section Shapes

variable {dnsOk : Bytes → Bool} {m : HandshakeMessage}

theorem raw_clientHello (h : m.Fits dnsOk .tls12) :
    (∀ a, m.asClientHello = some a → m = ⟨0x01, .clientHello a⟩ ∧ a.Fits dnsOk ∧ m.raw = (0x01, a.encode)) ∧
    (m.raw.1 = 0x01 → m.asClientHello ≠ none) := by
  obtain ⟨hb, -⟩ := h
  obtain ⟨typ, p⟩ := m
  constructor
  · intro a ha
    cases p <;> simp only [HandshakeMessage.asClientHello, Option.some.injEq, reduceCtorEq] at ha
    subst ha
    obtain ⟨rfl, h2⟩ := hb
    exact ⟨rfl, h2, rfl⟩
  · intro ht
    cases p <;> simp only [HandshakeMessage.BodyFits, handshakeTypes] at hb <;>
      simp only [HandshakeMessage.raw, HandshakeMessage.wireType, HandshakeMessage.asClientHello] at ht ⊢ <;>
    first
    | (obtain ⟨rfl, -⟩ := hb; exact absurd ht (by decide))
    | (obtain rfl := hb; exact absurd ht (by decide))
    | (exact Option.some_ne_none _)
    | (exfalso
       simp only [List.mem_cons, List.not_mem_nil, or_false, not_or] at hb
       by_cases h6 : typ = 0x06
       · rw [if_pos h6] at ht; exact absurd ht (by decide)
       · rw [if_neg h6] at ht; exact hb.1.1 ht)

theorem raw_certificate (h : m.Fits dnsOk .tls12) :
    (∀ a, m.asCertificate = some a → m = ⟨0x0b, .certificate a⟩) ∧ (m.raw.1 = 0x0b → m.asCertificate ≠ none) := by
  obtain ⟨hb, -⟩ := h
  obtain ⟨typ, p⟩ := m
  constructor
  · intro a ha
    cases p <;> simp only [HandshakeMessage.asCertificate, Option.some.injEq, reduceCtorEq] at ha
    subst ha
    obtain ⟨rfl, h2⟩ := hb
    rfl
  · intro ht
    cases p <;> simp only [HandshakeMessage.BodyFits, handshakeTypes] at hb <;>
      simp only [HandshakeMessage.raw, HandshakeMessage.wireType, HandshakeMessage.asCertificate] at ht ⊢ <;>
    first
    | (obtain ⟨rfl, -⟩ := hb; exact absurd ht (by decide))
    | (obtain rfl := hb; exact absurd ht (by decide))
    | (exact Option.some_ne_none _)
    | (exact absurd hb.2.1 (by decide))
    | (exfalso
       simp only [List.mem_cons, List.not_mem_nil, or_false, not_or] at hb
       by_cases h6 : typ = 0x06
       · rw [if_pos h6] at ht; exact absurd ht (by decide)
       · rw [if_neg h6] at ht; exact hb.1.2.2.1 ht)

theorem raw_keyExchange (h : m.Fits dnsOk .tls12) :
    (∀ a, m.asServerKeyExchange = some a → m.raw = (0x0c, a)) ∧ (m.raw.1 = 0x0c → m.asServerKeyExchange ≠ none) := by
  obtain ⟨hb, -⟩ := h
  obtain ⟨typ, p⟩ := m
  constructor
  · intro a ha
    cases p <;> simp only [HandshakeMessage.asServerKeyExchange, Option.some.injEq, reduceCtorEq] at ha
    subst ha
    obtain rfl : typ = 0x0c := hb
    rfl
  · intro ht
    cases p <;> simp only [HandshakeMessage.BodyFits, handshakeTypes] at hb <;>
      simp only [HandshakeMessage.raw, HandshakeMessage.wireType, HandshakeMessage.asServerKeyExchange] at ht ⊢ <;>
    first
    | (exact Option.some_ne_none _)
    | (obtain ⟨rfl, -⟩ := hb; exact absurd ht (by decide))
    | (obtain rfl := hb; exact absurd ht (by decide))
    | (exfalso
       simp only [List.mem_cons, List.not_mem_nil, or_false, not_or] at hb
       by_cases h6 : typ = 0x06
       · rw [if_pos h6] at ht; exact absurd ht (by decide)
       · rw [if_neg h6] at ht; exact hb.1.2.2.2.1 ht)

theorem serverHello_random {h : ServerHello} (hf : h.Fits) : (h.encode.drop 2).take 32 = h.random := by
  have h1 : (codecVersion.encode h.legacyVersion).length = 2 := beBytes_length 2 _
  have h2 : codecRandom.encode h.random = h.random := rfl
  unfold ServerHello.encode
  rw [List.drop_append_of_le_length (by omega), List.drop_of_length_le (by omega), List.nil_append, h2,
    ← hf.random, List.take_left]

theorem helloRetry_random (h : HelloRetryRequest) : (h.encode.drop 2).take 32 = helloRetryRandom := by
  have h1 : (codecVersion.encode h.legacyVersion).length = 2 := beBytes_length 2 _
  have h2 : helloRetryRandom.length = 32 := by decide
  unfold HelloRetryRequest.encode
  rw [List.drop_append_of_le_length (by omega), List.drop_of_length_le (by omega), List.nil_append,
    ← h2, List.take_left]

theorem raw_serverHello (h : m.Fits dnsOk .tls12) :
    (∀ a, m.asServerHello = some a → a.Fits ∧ m.raw = (0x02, a.encode)) ∧
    (m.raw.1 = 0x02 → m.asServerHello = none → (m.raw.2.drop 2).take 32 = helloRetryRandom) := by
  obtain ⟨hb, -⟩ := h
  obtain ⟨typ, p⟩ := m
  constructor
  · intro a ha
    cases p <;> simp only [HandshakeMessage.asServerHello, Option.some.injEq, reduceCtorEq] at ha
    subst ha
    obtain ⟨rfl, h2⟩ := hb
    exact ⟨h2, rfl⟩
  · intro ht hn
    cases p <;> simp only [HandshakeMessage.BodyFits, handshakeTypes] at hb <;>
      simp only [HandshakeMessage.raw, HandshakeMessage.wireType, HandshakeMessage.asServerHello, reduceCtorEq] at ht hn ⊢ <;>
    first
    | (obtain ⟨rfl, -⟩ := hb; exact absurd ht (by decide))
    | (obtain rfl := hb; exact absurd ht (by decide))
    | (obtain ⟨rfl, -⟩ := hb; exact helloRetry_random _)
    | (exfalso
       simp only [List.mem_cons, List.not_mem_nil, or_false, not_or] at hb
       by_cases h6 : typ = 0x06
       · exact hb.1.2.2.2.2.2.2.2.2.2.2.2.2.2.2.2 h6
       · rw [if_neg h6] at ht; exact hb.1.2.1 ht)

end Shapes

/-- The first message for which the pattern matches. -/
theorem findSome_first {α : Type} (l : List HandshakeMessage) (p : HandshakeMessage → Option α) (a : α) :
    l.findSome? p = some a ↔ ∃ before m after, l = before ++ m :: after ∧ p m = some a ∧ ∀ x ∈ before, p x = none := by
  rw [List.findSome?_eq_some_iff]

theorem map_raw_split {l : List HandshakeMessage} {before after : List (Byte × Bytes)} {x : Byte × Bytes}
    (h : l.map (·.raw) = before ++ x :: after) :
    ∃ b m a, l = b ++ m :: a ∧ b.map (·.raw) = before ∧ m.raw = x ∧ a.map (·.raw) = after := by
  obtain ⟨b, r, rfl, h1, h2⟩ := List.map_eq_append_iff.1 h
  obtain ⟨m, a, rfl, h3, h4⟩ := List.map_eq_cons_iff.1 h2
  exact ⟨b, m, a, rfl, h1, h3, h4⟩

/-- A generic form of the four extractions. -/
theorem find_first_iff {α : Type} {dnsOk : Bytes → Bool} (t : Byte) (p : HandshakeMessage → Option α)
    (h1 : ∀ m : HandshakeMessage, m.Fits dnsOk .tls12 → p m ≠ none → m.raw.1 = t)
    (h2 : ∀ m : HandshakeMessage, m.Fits dnsOk .tls12 → m.raw.1 = t → p m ≠ none)
    (l : List HandshakeMessage) (hl : ∀ m ∈ l, m.Fits dnsOk .tls12) (a : α) :
    l.findSome? p = some a ↔ ∃ before m after, l = before ++ m :: after ∧ p m = some a ∧
      ∀ x ∈ before, x.raw.1 ≠ t := by
  rw [findSome_first]
  constructor
  · rintro ⟨b, m, c, rfl, hm, hb⟩
    exact ⟨b, m, c, rfl, hm, fun x hx he => h2 x (hl x (by simp [hx])) he (hb x hx)⟩
  · rintro ⟨b, m, c, rfl, hm, hb⟩
    refine ⟨b, m, c, rfl, hm, fun x hx => ?_⟩
    cases hp : p x with
    | none => rfl
    | some y => exact absurd (h1 x (hl x (by simp [hx])) (by simp [hp])) (hb x hx)

theorem certificate_raw {dnsOk : Bytes → Bool} {certs : List Bytes}
    (h : (HandshakeMessage.mk 0x0b (.certificate certs)).Fits dnsOk .tls12) :
    (HandshakeMessage.mk 0x0b (.certificate certs)).raw =
      (0x0b, lengthPrefixed 3 (certs.map (lengthPrefixed 3)).flatten) ∧ ∀ c ∈ certs, c.length < 2 ^ 24 := by
  have hp := (parseHandshake_iff dnsOk 0x0b .tls12 _ _).2 ⟨h.1, rfl, rfl⟩
  obtain ⟨certs', h1, h2, -, h4⟩ := (C65_layout_certificate dnsOk .tls12 (by decide) _ _).1 hp
  have e : certs' = certs := by
    have := congrArg HandshakeMessage.payload h1
    simpa using this.symm
  subst e
  refine ⟨?_, h2⟩
  show ((0x0b : Byte), HandshakePayload.encode _) = _
  exact congrArg _ h4

theorem lengthPrefixed_inj {k : Nat} {a b r s : Bytes} (ha : a.length < 256 ^ k) (hb : b.length < 256 ^ k)
    (h : lengthPrefixed k a ++ r = lengthPrefixed k b ++ s) : a = b ∧ r = s := by
  unfold lengthPrefixed at h
  rw [List.append_assoc, List.append_assoc] at h
  obtain ⟨h1, h2⟩ := List.append_inj h (by simp)
  have hl := beBytes_inj ha hb h1
  exact List.append_inj h2 hl

theorem lengthPrefixed3_flatten_inj {a b : List Bytes} (ha : ∀ c ∈ a, c.length < 2 ^ 24)
    (hb : ∀ c ∈ b, c.length < 2 ^ 24) (h : (a.map (lengthPrefixed 3)).flatten = (b.map (lengthPrefixed 3)).flatten) :
    a = b := by
  induction a generalizing b with
  | nil =>
    cases b with
    | nil => rfl
    | cons c b =>
      have := congrArg List.length h
      simp [lengthPrefixed] at this
      omega
  | cons c a ih =>
    cases b with
    | nil =>
      have := congrArg List.length h
      simp [lengthPrefixed] at this
    | cons c' b =>
      simp only [List.map_cons, List.flatten_cons] at h
      obtain ⟨rfl, h2⟩ := lengthPrefixed_inj (k := 3) (ha c (by simp)) (hb c' (by simp)) h
      rw [ih (fun x hx => ha x (by simp [hx])) (fun x hx => hb x (by simp [hx])) h2]

theorem lengthPrefixed_inj' {k : Nat} {a b : Bytes} (h : lengthPrefixed k a = lengthPrefixed k b) : a = b := by
  unfold lengthPrefixed at h
  exact (List.append_inj h (by simp)).2

theorem scheme_iff (env : TtEnv) (scheme : UInt16) (certs : List Bytes) (alg : SignatureAlgorithm) :
    mapSignatureScheme env scheme certs = .ok alg ↔ SchemeIs (certs.head?.bind env.curve) scheme.toNat alg := by
  have hc : ∀ p q a, (extractCurve env certs >>= byCurve p q) = .ok a ↔
      (certs.head?.bind env.curve = some .p256 ∧ a = p) ∨ (certs.head?.bind env.curve = some .p384 ∧ a = q) := by
    intro p q a
    unfold extractCurve
    cases certs.head? with
    | none => simp [Outcome.bind_err]
    | some c =>
      cases h : env.curve c with
      | none => simp [orParse, h, Outcome.bind_err]
      | some k =>
        cases k <;> simp [orParse, h, Outcome.bind_ok, byCurve, eq_comm]
  have hs : ∀ n : Nat, n < 2 ^ 16 → (scheme = UInt16.ofNat n ↔ scheme.toNat = n) := by
    intro n hn
    constructor
    · rintro rfl; rw [UInt16.toNat_ofNat']; exact Nat.mod_eq_of_lt hn
    · rintro rfl; simp
  constructor
  · intro h
    unfold mapSignatureScheme at h
    split at h
    · rename_i e; obtain rfl := Outcome.ok.inj h; subst e; exact .rsaPkcs1Sha256
    split at h
    · rename_i e; obtain rfl := Outcome.ok.inj h; subst e; exact .rsaPkcs1Sha384
    split at h
    · rename_i e; obtain rfl := Outcome.ok.inj h; subst e; exact .rsaPkcs1Sha512
    split at h
    · rename_i e; obtain rfl := Outcome.ok.inj h; subst e; exact .rsaPssSha256
    split at h
    · rename_i e; obtain rfl := Outcome.ok.inj h; subst e; exact .rsaPssSha384
    split at h
    · rename_i e; obtain rfl := Outcome.ok.inj h; subst e; exact .rsaPssSha512
    split at h
    · rename_i e; obtain rfl := Outcome.ok.inj h; subst e; exact .ed25519
    split at h
    · rename_i e; subst e
      rcases (hc _ _ _).1 h with ⟨h1, rfl⟩ | ⟨h1, rfl⟩
      · exact .ecdsaP256Sha256 h1
      · exact .ecdsaP384Sha256 h1
    split at h
    · rename_i e; subst e
      rcases (hc _ _ _).1 h with ⟨h1, rfl⟩ | ⟨h1, rfl⟩
      · exact .ecdsaP256Sha384 h1
      · exact .ecdsaP384Sha384 h1
    cases h
  · intro h
    have key : ∀ n : Nat, n < 2 ^ 16 → SchemeIs (certs.head?.bind env.curve) n alg →
        mapSignatureScheme env (UInt16.ofNat n) certs = .ok alg := by
      intro n _ hn
      cases hn with
      | rsaPkcs1Sha256 => rfl
      | rsaPkcs1Sha384 => rfl
      | rsaPkcs1Sha512 => rfl
      | rsaPssSha256 => rfl
      | rsaPssSha384 => rfl
      | rsaPssSha512 => rfl
      | ed25519 => rfl
      | ecdsaP256Sha256 hk => exact (hc _ _ _).2 (.inl ⟨hk, rfl⟩)
      | ecdsaP384Sha256 hk => exact (hc _ _ _).2 (.inr ⟨hk, rfl⟩)
      | ecdsaP256Sha384 hk => exact (hc _ _ _).2 (.inl ⟨hk, rfl⟩)
      | ecdsaP384Sha384 hk => exact (hc _ _ _).2 (.inr ⟨hk, rfl⟩)
    have := key scheme.toNat scheme.toNat_lt h
    rwa [← (hs scheme.toNat scheme.toNat_lt).2 rfl] at this

theorem payloadU8_eq {k : Bytes} (h : k.length < 2 ^ 8) : codecPayloadU8.encode k = lengthPrefixed 1 k := by
  show [UInt8.ofNat k.length] ++ k = _
  simp only [lengthPrefixed, beBytes, Nat.pow_zero, Nat.div_one]
  rw [Nat.mod_eq_of_lt h]

theorem payloadU16_eq {k : Bytes} (h : k.length < 2 ^ 16) : codecPayloadU16.encode k = lengthPrefixed 2 k := by
  show beBytes 2 (UInt16.ofNat k.length).toNat ++ k = _
  rw [UInt16.toNat_ofNat', Nat.mod_eq_of_lt h]
  rfl

theorem ecdhe_encode_eq (k : Bytes) (s : UInt16) (sig : Bytes) (hk : k.length < 2 ^ 8) (hs : sig.length < 2 ^ 16) :
    codecEcdheServerKeyExchange.encode ⟨0x0017, k, s, sig⟩ = keyExchangeBody k s.toNat sig := by
  show [(3 : Byte)] ++ (beBytes 2 (0x0017 : UInt16).toNat ++ (codecPayloadU8.encode k ++
    (beBytes 2 s.toNat ++ codecPayloadU16.encode sig))) = _
  rw [payloadU8_eq hk, payloadU16_eq hs]
  have : beBytes 2 (0x0017 : UInt16).toNat = [0x00, 0x17] := by decide
  rw [this]
  simp [keyExchangeBody]

theorem unwrapEcdhe_iff (p : Bytes) (e : EcdheServerKeyExchange) (hg : e.namedGroup = 0x0017) :
    unwrapEcdhe p = some e ↔ e.Fits ∧ p = keyExchangeBody e.publicKey e.dss.scheme.toNat e.dss.sig := by
  unfold unwrapEcdhe
  rw [law_ecdhe.whole]
  obtain ⟨g, k, s, sig⟩ := e
  obtain rfl : g = 0x0017 := hg
  refine and_congr_right fun h => ?_
  rw [ecdhe_encode_eq k s sig h.1 h.2, eq_comm]

theorem keyExchangeBody_inj {k k' sig sig' : Bytes} {s s' : Nat} (hk : k.length < 2 ^ 8) (hk' : k'.length < 2 ^ 8)
    (hs : s < 2 ^ 16) (hs' : s' < 2 ^ 16) (h : keyExchangeBody k s sig = keyExchangeBody k' s' sig') :
    k = k' ∧ s = s' ∧ sig = sig' := by
  unfold keyExchangeBody at h
  rw [List.append_assoc, List.append_assoc] at h
  have h1 := List.append_cancel_left h
  obtain ⟨rfl, h2⟩ := lengthPrefixed_inj (k := 1) hk hk' h1
  obtain ⟨h3, h4⟩ := List.append_inj h2 (by simp)
  exact ⟨rfl, beBytes_inj (k := 2) hs hs' h3, lengthPrefixed_inj' h4⟩

/-! ### The extractions -/

section Extract

variable {env : TtEnv} {sent recv : List OpaqueMessage} {f : Flights} {cms rms : List HandshakeMessage}

theorem Parsed.clientHello (h : Parsed env sent recv f cms rms) (r : Vector Byte 32) :
    extractClientRandom cms = .ok r ↔ ∃ cv rest, cv.length = 2 ∧ f.clientHello = cv ++ (r.toList ++ rest) := by
  have hc := h.client
  obtain ⟨b, m, a, hl, hb, hm, -⟩ := map_raw_split (before := []) hc.symm
  obtain rfl : b = [] := List.map_eq_nil_iff.1 hb
  rw [List.nil_append] at hl
  have hf := h.cfits m (by simp [hl])
  have h1 := (raw_clientHello hf).2 (by rw [hm])
  cases ha : m.asClientHello with
  | none => exact absurd ha h1
  | some ch =>
    obtain ⟨-, h2, h3⟩ := (raw_clientHello hf).1 ch ha
    have hfind : cms.findSome? (·.asClientHello) = some ch := by rw [hl]; simp [ha]
    have henc : f.clientHello = ch.encode := by rw [hm] at h3; exact (Prod.mk.inj h3).2
    unfold extractClientRandom
    rw [hfind]
    have hl1 : (codecVersion.encode ch.clientVersion).length = 2 := beBytes_length 2 _
    have hl2 := h2.random
    constructor
    · intro he
      obtain rfl : toRandom ch.random = r := Outcome.ok.inj he
      rw [toRandom_toList hl2, henc]
      exact ⟨_, _, hl1, rfl⟩
    · rintro ⟨cv, rest, hcv, he⟩
      rw [henc] at he
      have he' : codecVersion.encode ch.clientVersion ++ (ch.random ++ _) = _ := he
      obtain ⟨-, e2⟩ := List.append_inj he' (by omega)
      obtain ⟨e3, -⟩ := List.append_inj e2 (by rw [hl2]; simp)
      show Outcome.ok (toRandom ch.random) = _
      rw [e3, toRandom_of_toList]

theorem Parsed.serverHello (h : Parsed env sent recv f cms rms) (v : TlsVersion) (r : Vector Byte 32) :
    extractServerHelloData rms = .ok (v, r) ↔
      ∃ before rest after, f.server = before ++ (0x02, helloVersion v ++ (r.toList ++ rest)) :: after ∧
        r.toList ≠ helloRetryRandom ∧ ∀ m ∈ before, m.1 = 0x02 → (m.2.drop 2).take 32 = helloRetryRandom := by
  unfold extractServerHelloData
  simp only [Outcome.bind_eq_ok, orParse_eq_ok, Outcome.ok.injEq, Prod.mk.injEq]
  constructor
  · rintro ⟨sh, h1, v', h2, rfl, rfl⟩
    obtain ⟨b, m, a, rfl, hm, hb⟩ := (findSome_first _ _ _).1 h1
    obtain ⟨hs, hr⟩ := (raw_serverHello (h.sfits m (by simp))).1 sh hm
    have hv := (ofProtocol_iff hs.version _).1 h2
    refine ⟨b.map (·.raw), codecSessionId.encode sh.sessionId ++ (codecU16.encode sh.cipherSuite ++
      (codecU8.encode sh.compressionMethod ++ codecServerExtension.vecU16.encode sh.extensions)), a.map (·.raw), ?_, ?_, ?_⟩
    · rw [h.server, List.map_append, List.map_cons, hr, toRandom_toList hs.random, ← hv]
      rfl
    · rw [toRandom_toList hs.random]; exact hs.notRetry
    · intro x hx ht
      obtain ⟨y, hy, rfl⟩ := List.mem_map.1 hx
      exact (raw_serverHello (h.sfits y (by simp [hy]))).2 ht (hb y hy)
  · rintro ⟨before, rest, after, hs, hn, hb⟩
    rw [h.server] at hs
    obtain ⟨b, m, a, rfl, rfl, hm, rfl⟩ := map_raw_split hs
    have hf := h.sfits m (by simp)
    have hvl : (helloVersion v).length = 2 := by cases v <;> rfl
    have hr : ((helloVersion v ++ (r.toList ++ rest)).drop 2).take 32 = r.toList := by
      rw [List.drop_append_of_le_length (by omega), List.drop_of_length_le (by omega), List.nil_append,
        List.take_append_of_le_length (by simp), List.take_of_length_le (by simp)]
    cases ha : m.asServerHello with
    | none =>
      have := (raw_serverHello hf).2 (by rw [hm]) ha
      rw [hm] at this
      exact absurd (hr.symm.trans this) hn
    | some sh =>
      obtain ⟨h2, h3⟩ := (raw_serverHello hf).1 sh ha
      have henc : helloVersion v ++ (r.toList ++ rest) = sh.encode := by rw [hm] at h3; exact (Prod.mk.inj h3).2
      have henc' : helloVersion v ++ (r.toList ++ rest) =
        codecVersion.encode sh.legacyVersion ++ (sh.random ++ _) := henc
      have hl1 : (codecVersion.encode sh.legacyVersion).length = 2 := beBytes_length 2 _
      obtain ⟨e1, e2⟩ := List.append_inj henc' (by omega)
      obtain ⟨e3, -⟩ := List.append_inj e2 (by rw [h2.random]; simp)
      refine ⟨sh, (findSome_first _ _ _).2 ⟨b, m, a, rfl, ha, ?_⟩, v, (ofProtocol_iff h2.version v).2 e1.symm, rfl, ?_⟩
      · intro x hx
        cases hxs : x.asServerHello with
        | none => rfl
        | some y =>
          obtain ⟨h5, h6⟩ := (raw_serverHello (h.sfits x (by simp [hx]))).1 y hxs
          have := hb x.raw (List.mem_map.2 ⟨x, hx, rfl⟩) (by rw [h6])
          rw [h6] at this
          exact absurd ((serverHello_random h5).symm.trans this) h5.notRetry
      · rw [← e3, toRandom_of_toList]

theorem Parsed.certs (h : Parsed env sent recv f cms rms) (certs : List Bytes) :
    extractCerts rms = .ok certs ↔
      FirstOf f.server 0x0b (lengthPrefixed 3 (certs.map (lengthPrefixed 3)).flatten) ∧ ∀ c ∈ certs, c.length < 2 ^ 24 := by
  unfold extractCerts
  rw [orParse_eq_ok, find_first_iff (dnsOk := env.dnsOk) 0x0b _ (fun m hf hp => by
    cases ha : m.asCertificate with
    | none => exact absurd ha hp
    | some a => rw [(raw_certificate hf).1 a ha]; rfl) (fun m hf => (raw_certificate hf).2) rms h.sfits certs]
  constructor
  · rintro ⟨b, m, a, rfl, hm, hb⟩
    have hf := h.sfits m (by simp)
    obtain rfl := (raw_certificate hf).1 certs hm
    obtain ⟨e1, e2⟩ := certificate_raw hf
    refine ⟨⟨b.map (·.raw), a.map (·.raw), ?_, ?_⟩, e2⟩
    · rw [h.server, List.map_append, List.map_cons, e1]
    · intro x hx
      obtain ⟨y, hy, rfl⟩ := List.mem_map.1 hx
      exact hb y hy
  · rintro ⟨⟨before, after, hs, hb⟩, hl⟩
    rw [h.server] at hs
    obtain ⟨b, m, a, rfl, rfl, hm, rfl⟩ := map_raw_split hs
    have hf := h.sfits m (by simp)
    cases ha : m.asCertificate with
    | none => exact absurd ha ((raw_certificate hf).2 (by rw [hm]))
    | some l =>
      obtain rfl := (raw_certificate hf).1 l ha
      obtain ⟨e1, e2⟩ := certificate_raw hf
      rw [hm] at e1
      have e3 := lengthPrefixed_inj' (Prod.mk.inj e1).2
      obtain rfl := lengthPrefixed3_flatten_inj hl e2 e3
      exact ⟨b, _, a, rfl, ha, fun x hx => hb x.raw (List.mem_map.2 ⟨x, hx, rfl⟩)⟩

theorem Parsed.keyExchange (h : Parsed env sent recv f cms rms) (certs : List Bytes) (key : ServerEphemKey)
    (sig : ServerSignature) :
    extractServerKeyExchange env rms certs = .ok (key, sig) ↔
      ∃ scheme, FirstOf f.server 0x0c (keyExchangeBody key.key scheme sig.sig) ∧ scheme < 2 ^ 16 ∧ key.key.length < 2 ^ 8 ∧
        sig.sig.length < 2 ^ 16 ∧ SchemeIs (certs.head?.bind env.curve) scheme sig.alg := by
  have hfind := find_first_iff (dnsOk := env.dnsOk) 0x0c (·.asServerKeyExchange) (fun m hf hp => by
    cases ha : m.asServerKeyExchange with
    | none => exact absurd ha hp
    | some a => rw [(raw_keyExchange hf).1 a ha]) (fun m hf => (raw_keyExchange hf).2) rms h.sfits
  unfold extractServerKeyExchange
  simp only [Outcome.bind_eq_ok, orParse_eq_ok]
  constructor
  · rintro ⟨ske, h1, e, h2, h3⟩
    by_cases hg : e.namedGroup = 0x0017
    · rw [if_neg (by simp [hg])] at h3
      simp only [Outcome.bind_eq_ok, Outcome.ok.injEq, Prod.mk.injEq] at h3
      obtain ⟨alg, h4, rfl, rfl⟩ := h3
      obtain ⟨h5, h6⟩ := (unwrapEcdhe_iff _ _ hg).1 h2
      obtain ⟨b, m, a, rfl, hm, hb⟩ := (hfind ske).1 h1
      have hr := (raw_keyExchange (h.sfits m (by simp))).1 ske hm
      refine ⟨e.dss.scheme.toNat, ⟨b.map (·.raw), a.map (·.raw), ?_, ?_⟩, e.dss.scheme.toNat_lt, h5.1, h5.2,
        (scheme_iff env _ certs alg).1 h4⟩
      · rw [h.server, List.map_append, List.map_cons, hr, h6]
      · intro x hx
        obtain ⟨y, hy, rfl⟩ := List.mem_map.1 hx
        exact hb y hy
    · rw [if_pos hg] at h3; cases h3
  · rintro ⟨scheme, ⟨before, after, hs, hb⟩, hl1, hl2, hl3, hsch⟩
    rw [h.server] at hs
    obtain ⟨b, m, a, rfl, rfl, hm, rfl⟩ := map_raw_split hs
    have hf := h.sfits m (by simp)
    cases ha : m.asServerKeyExchange with
    | none => exact absurd ha ((raw_keyExchange hf).2 (by rw [hm]))
    | some ske =>
      have hr := (raw_keyExchange hf).1 ske ha
      rw [hm] at hr
      have hske := (Prod.mk.inj hr).2
      have hn : (UInt16.ofNat scheme).toNat = scheme := by rw [UInt16.toNat_ofNat']; exact Nat.mod_eq_of_lt hl1
      refine ⟨ske, (hfind ske).2 ⟨b, m, a, rfl, ha, fun x hx => hb x.raw (List.mem_map.2 ⟨x, hx, rfl⟩)⟩,
        ⟨0x0017, key.key, UInt16.ofNat scheme, sig.sig⟩, (unwrapEcdhe_iff _ _ rfl).2 ⟨⟨hl2, hl3⟩, ?_⟩, ?_⟩
      · rw [← hske]; simp only [hn]
      · rw [if_neg (by simp)]
        simp only [Outcome.bind_eq_ok, Outcome.ok.injEq, Prod.mk.injEq]
        exact ⟨sig.alg, (scheme_iff _ _ _ _).2 (by simp only [hn]; exact hsch), by simp⟩

theorem Parsed.extract (h : Parsed env sent recv f cms rms) (v : TlsVersion) (d : HandshakeData) :
    extractHandshake env cms rms = .ok (v, d) ↔ WireFields env f v d := by
  unfold extractHandshake
  simp only [Outcome.bind_eq_ok, Outcome.ok.injEq, Prod.mk.injEq]
  constructor
  · rintro ⟨⟨v', r⟩, h1, cr, h2, certs, h3, ⟨key, sig⟩, h4, rfl, rfl⟩
    exact ⟨(h.clientHello _).1 h2, (h.serverHello _ _).1 h1, (h.certs _).1 h3, (h.keyExchange _ _ _).1 h4⟩
  · intro hw
    obtain ⟨certs, alg, sig, cr, sr, key⟩ := d
    exact ⟨(v, sr), (h.serverHello _ _).2 hw.serverHello, cr, (h.clientHello _).2 hw.clientHello, certs,
      (h.certs _).2 hw.certificate, (key, ⟨alg, sig⟩), (h.keyExchange _ _ _).2 hw.keyExchange, rfl, rfl⟩

end Extract

end Tlsn
