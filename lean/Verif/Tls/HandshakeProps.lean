import Verif.Tls.HandshakeParse
import Verif.Tls.HandshakeHash
import Verif.Tls.FrameProps

/-! # Handshake messages and the handshake hash (C65, C66) -/

namespace Tlsn

/-- **C65** A record payload of a type and a version is accepted, as a message `m`, exactly when `m` is a message of this
type all parts of which fit into their length fields and the payload is the encoding of `m`.  So every byte string is
accepted as at most one message, every accepted payload is encoded again to the same bytes, and every message that can be
represented is parsed to itself. -/
theorem C65_exact (dnsOk : Bytes → Bool) (typ : ContentType) (vers : ProtocolVersion) (payload : Bytes)
    (m : MessagePayload) :
    MessagePayload.new dnsOk typ vers payload = some m ↔
      m.Fits dnsOk vers ∧ m.contentType = typ ∧ m.encode = payload :=
  messagePayload_new dnsOk typ vers payload m

/-- **C65** Messages which can be represented and have the same encoding are the same. -/
theorem C65_injective (dnsOk : Bytes → Bool) (vers : ProtocolVersion) (m m' : MessagePayload) (h : m.Fits dnsOk vers)
    (h' : m'.Fits dnsOk vers) (ht : m.contentType = m'.contentType) (he : m.encode = m'.encode) : m = m' := by
  have e := (messagePayload_new dnsOk _ vers _ m).2 ⟨h, rfl, rfl⟩
  rw [ht, he, (messagePayload_new dnsOk _ vers _ m').2 ⟨h', rfl, rfl⟩] at e
  exact (Option.some.inj e).symm

/-- **C65** Reading a handshake message out of a stream: at any place of any buffer, the encoding of a message is read back
and exactly its bytes are consumed, and whatever is read is a message that fits and whose encoding is what was
consumed. -/
theorem C65_in_stream (dnsOk : Bytes → Bool) (vers : ProtocolVersion) :
    Lawful (Codec.mk HandshakeMessage.encode (readHandshakeMessage dnsOk vers)) (HandshakeMessage.Fits dnsOk vers) :=
  (lawful_iff _ _).2 ⟨(law_handshakeMessage dnsOk vers).inv, (law_handshakeMessage dnsOk vers).canon⟩

/-- **C65** The five kinds of extensions that are read one after the other. -/
theorem C65_extensions (dnsOk : Bytes → Bool) :
    Lawful (codecClientExtension dnsOk) (ClientExtension.Fits dnsOk) ∧
    Lawful codecServerExtension ServerExtension.Fits ∧ Lawful codecHelloRetryExtension HelloRetryExtension.Fits ∧
    Lawful codecCertReqExtension CertReqExtension.Fits ∧
    Lawful codecNewSessionTicketExtension NewSessionTicketExtension.Fits :=
  ⟨(lawful_iff _ _).2 ⟨(law_clientExtension dnsOk).inv, (law_clientExtension dnsOk).canon⟩,
   (lawful_iff _ _).2 ⟨law_serverExtension.inv, law_serverExtension.canon⟩,
   (lawful_iff _ _).2 ⟨law_helloRetryExtension.inv, law_helloRetryExtension.canon⟩,
   (lawful_iff _ _).2 ⟨law_certReqExtension.inv, law_certReqExtension.canon⟩,
   (lawful_iff _ _).2 ⟨law_newSessionTicketExtension.inv, law_newSessionTicketExtension.canon⟩⟩

/-! ### The layout on the wire -/

/-- A string with its length in `k` bytes. -/
def lengthPrefixed (k : Nat) (b : Bytes) : Bytes := beBytes k b.length ++ b

/-- An extension: type and body with its length. -/
def extensionBytes (typ : UInt16) (body : Bytes) : Bytes := beBytes 2 typ.toNat ++ lengthPrefixed 2 body

theorem u16_encode_eq (x : UInt16) : codecU16.encode x = beBytes 2 x.toNat := rfl

theorem u8_encode_len {n : Nat} (h : n < 2 ^ 8) : codecU8.encode (UInt8.ofNat n) = beBytes 1 n := by
  simp [codecU8, beBytes, Nat.mod_eq_of_lt (show n < 256 from h)]

theorem u16_encode_len {n : Nat} (h : n < 2 ^ 16) : codecU16.encode (UInt16.ofNat n) = beBytes 2 n := by
  rw [u16_encode_eq, UInt16.toNat_ofNat', Nat.mod_eq_of_lt h]

theorem extension_encode_eq {ε : Type} (typeOf : ε → UInt16) (bodyOf : ε → Bytes) (parse : UInt16 → Bytes → Option ε)
    (e : ε) (h : (bodyOf e).length < 2 ^ 16) :
    (codecExtension typeOf bodyOf parse).encode e = extensionBytes (typeOf e) (bodyOf e) := by
  show codecU16.encode _ ++ (codecU16.encode _ ++ _) = _
  rw [u16_encode_len h]; rfl

theorem vecU16_encode_eq {α : Type} (c : Codec α) (f : α → Bytes) (P : α → Prop) (l : List α) (h : VecFits 16 c P l)
    (hf : ∀ x ∈ l, c.encode x = f x) : c.vecU16.encode l = lengthPrefixed 2 (l.map f).flatten := by
  have he : encodeAll c l = (l.map f).flatten := by
    unfold encodeAll; rw [List.map_congr_left hf]
  show encodeVecU16 c l = _
  unfold encodeVecU16 lengthPrefixed
  have hl : (encodeAll c l).length < 2 ^ 16 := h.2
  rw [UInt16.toNat_ofNat', Nat.mod_eq_of_lt hl, he]

theorem vecU8_encode_eq {α : Type} (c : Codec α) (f : α → Bytes) (P : α → Prop) (l : List α) (h : VecFits 8 c P l)
    (hf : ∀ x ∈ l, c.encode x = f x) : c.vecU8.encode l = lengthPrefixed 1 (l.map f).flatten := by
  have he : encodeAll c l = (l.map f).flatten := by
    unfold encodeAll; rw [List.map_congr_left hf]
  show encodeVecU8 c l = _
  unfold encodeVecU8 lengthPrefixed
  have hl : (encodeAll c l).length < 2 ^ 8 := h.2
  rw [he] at hl ⊢
  show codecU8.encode _ ++ _ = _
  rw [u8_encode_len hl]

/-- **C65** The bytes of a client hello and of a server hello are those of RFC 5246, 7.4.1.2 and 7.4.1.3. -/
theorem C65_layout_hello (dnsOk : Bytes → Bool) (c : ClientHello) (hc : c.Fits dnsOk) (s : ServerHello) (hs : s.Fits) :
    c.encode = beBytes 2 c.clientVersion.getU16.toNat ++ (c.random ++ (lengthPrefixed 1 c.sessionId ++
      (lengthPrefixed 2 (c.cipherSuites.map fun n => beBytes 2 n.toNat).flatten ++
        (lengthPrefixed 1 c.compressionMethods ++
          lengthPrefixed 2 (c.extensions.map fun e => extensionBytes e.getType e.body).flatten)))) ∧
    s.encode = beBytes 2 s.legacyVersion.getU16.toNat ++ (s.random ++ (lengthPrefixed 1 s.sessionId ++
      (beBytes 2 s.cipherSuite.toNat ++ ([s.compressionMethod] ++
        lengthPrefixed 2 (s.extensions.map fun e => extensionBytes e.getType e.body).flatten)))) := by
  constructor
  · unfold ClientHello.encode encodeClientExtensions
    rw [if_neg hc.some]
    have h1 : (codecClientExtension fun _ => true).vecU16.encode c.extensions =
        (codecClientExtension dnsOk).vecU16.encode c.extensions :=
      encodeVecU16_congr (clientExtension_encode_eq _ _) _
    rw [h1, vecU16_encode_eq _ _ _ _ hc.extensions fun e he => extension_encode_eq _ _ _ e (hc.extensions.1 e he).2,
      vecU16_encode_eq _ _ _ _ hc.suites fun e _ => u16_encode_eq e,
      vecU8_encode_eq _ (fun x => [x]) _ _ hc.compression fun e _ => rfl]
    have h2 : (c.compressionMethods.map fun x => [x]).flatten = c.compressionMethods := by
      rw [← List.flatMap_def]; exact List.flatMap_singleton' _
    have h3 : codecSessionId.encode c.sessionId = lengthPrefixed 1 c.sessionId := by
      have := hc.sessionId
      show codecU8.encode _ ++ _ = _
      rw [u8_encode_len (by omega)]; rfl
    rw [h2, h3]
    rfl
  · unfold ServerHello.encode
    rw [vecU16_encode_eq _ _ _ _ hs.extensions fun e he => extension_encode_eq _ _ _ e (hs.extensions.1 e he).2]
    have h3 : codecSessionId.encode s.sessionId = lengthPrefixed 1 s.sessionId := by
      have := hs.sessionId
      show codecU8.encode _ ++ _ = _
      rw [u8_encode_len (by omega)]; rfl
    rw [h3]
    rfl

/-- **C65** The header of a handshake message is its type and the length of its body in three bytes. -/
theorem C65_layout_message (dnsOk : Bytes → Bool) (vers : ProtocolVersion) (m : HandshakeMessage)
    (h : m.Fits dnsOk vers) :
    m.encode = [m.wireType] ++ lengthPrefixed 3 m.payload.encode ∧
    (m.wireType = m.typ ∨ ∃ p, m = ⟨0x06, .helloRetryRequest p⟩ ∧ m.wireType = 0x02) := by
  constructor
  · have h1 : (UInt32.ofNat m.payload.encode.length).toNat = m.payload.encode.length := by
      rw [UInt32.toNat_ofNat']; exact Nat.mod_eq_of_lt (Nat.lt_trans h.2 (by decide))
    show codecU8.encode _ ++ (((beBytes 4 _).drop 1) ++ _) = _
    rw [h1, drop_beBytes_succ]
    rfl
  · by_cases h6 : m.typ = 0x06
    · right
      have hb := h.1
      obtain ⟨t, p⟩ := m
      obtain rfl : t = 0x06 := h6
      unfold HandshakeMessage.BodyFits at hb
      cases p with
      | helloRetryRequest p => exact ⟨p, rfl, rfl⟩
      | unknown p => exact absurd (show (0x06 : UInt8) ∈ handshakeTypes by decide) hb.1
      | _ => simp_all
    · left
      unfold HandshakeMessage.wireType
      rw [if_neg h6]

/-- **C65** A certificate message of TLS 1.2 is a list of certificates, each with its length in three bytes. -/
theorem C65_layout_certificate (dnsOk : Bytes → Bool) (vers : ProtocolVersion) (hv : vers ≠ .tls13) (b : Bytes)
    (m : HandshakeMessage) :
    parseHandshake dnsOk 0x0b vers b = some m ↔
      ∃ certs : List Bytes, m = ⟨0x0b, .certificate certs⟩ ∧ (∀ c ∈ certs, c.length < 2 ^ 24) ∧
        (certs.map (lengthPrefixed 3)).flatten.length ≤ 0x10000 ∧
        b = lengthPrefixed 3 (certs.map (lengthPrefixed 3)).flatten := by
  have hp : ∀ c : Bytes, c.length < 2 ^ 24 → codecPayloadU24.encode c = lengthPrefixed 3 c := by
    intro c hc
    show ((beBytes 4 _).drop 1) ++ c = _
    rw [UInt32.toNat_ofNat', Nat.mod_eq_of_lt (Nat.lt_trans hc (by decide)), drop_beBytes_succ]
    rfl
  have he : ∀ certs : List Bytes, (∀ c ∈ certs, c.length < 2 ^ 24) →
      encodeAll codecPayloadU24 certs = (certs.map (lengthPrefixed 3)).flatten := by
    intro certs h
    unfold encodeAll
    rw [List.map_congr_left fun c hc => hp c (h c hc)]
  have henc : ∀ certs : List Bytes, (∀ c ∈ certs, c.length < 2 ^ 24) →
      (certs.map (lengthPrefixed 3)).flatten.length ≤ 0x10000 →
      codecCertificates.encode certs = lengthPrefixed 3 (certs.map (lengthPrefixed 3)).flatten := by
    intro certs h hl
    show encodeVecU24 codecPayloadU24 certs = _
    unfold encodeVecU24 lengthPrefixed
    have hl' : (certs.map (lengthPrefixed 3)).flatten.length < 2 ^ 32 := Nat.lt_of_le_of_lt hl (by decide)
    unfold lengthPrefixed at hl' he
    rw [he certs h, UInt32.toNat_ofNat', Nat.mod_eq_of_lt hl', drop_beBytes_succ]
  rw [parseHandshake_iff]
  constructor
  · rintro ⟨h1, h2, rfl⟩
    obtain ⟨t, p⟩ := m
    have ht : t = 0x0b := by
      unfold HandshakeMessage.wireType at h2
      by_cases h6 : t = 0x06
      · simp only [h6, if_true] at h2; cases h2
      · simpa only [h6, if_false] using h2
    subst ht
    unfold HandshakeMessage.BodyFits at h1
    cases p with
    | certificate certs =>
      obtain ⟨-, -, hc, hl, hm⟩ := h1
      rw [he certs hc] at hm
      exact ⟨certs, rfl, hc, hm, henc certs hc hm⟩
    | certificate13 p => exact absurd h1.2.1 hv
    | unknown p => exact absurd (show (0x0b : UInt8) ∈ handshakeTypes by decide) h1.1
    | _ => simp_all
  · rintro ⟨certs, rfl, hc, hm, rfl⟩
    refine ⟨⟨rfl, hv, hc, ?_, ?_⟩, rfl, henc certs hc hm⟩
    · rw [he certs hc]; exact Nat.lt_of_le_of_lt hm (by decide)
    · rw [he certs hc]; exact hm

/-- **C65** (disagreement with RFC 5246, 7.4.1.3, where the extensions of a server hello are optional) A server hello
without extensions block is rejected. -/
theorem C65_server_hello_without_extensions_rejected (dnsOk : Bytes → Bool) (vers : ProtocolVersion)
    (version random sessionId suite : Bytes) (compression : Byte) (h1 : version.length = 2) (h2 : random.length = 32)
    (h3 : sessionId.length ≤ 32) (h4 : suite.length = 2) :
    parseHandshake dnsOk 0x02 vers
      (version ++ (random ++ (lengthPrefixed 1 sessionId ++ (suite ++ [compression])))) = none := by
  cases h : parseHandshake dnsOk 0x02 vers
      (version ++ (random ++ (lengthPrefixed 1 sessionId ++ (suite ++ [compression])))) with
  | none => rfl
  | some m =>
    exfalso
    have key : ∀ (v r sid s : Bytes) (c : Bytes) (tail : Bytes), v.length = 2 → r.length = 32 → sid.length ≤ 32 →
        s.length = 2 → c.length = 1 → tail ≠ [] →
        v ++ (r ++ (codecSessionId.encode sid ++ (s ++ (c ++ tail)))) =
          version ++ (random ++ (lengthPrefixed 1 sessionId ++ (suite ++ [compression]))) → False := by
      intro v r sid s c tail hv hr hs hsu hc ht he
      have e1 := (List.append_inj he (by omega)).2
      have e2 := (List.append_inj e1 (by omega)).2
      have hx : codecSessionId.encode sid = lengthPrefixed 1 sid := by
        show codecU8.encode _ ++ _ = _
        rw [u8_encode_len (by omega)]; rfl
      rw [hx] at e2
      unfold lengthPrefixed at e2
      rw [List.append_assoc, List.append_assoc] at e2
      obtain ⟨e3, e4⟩ := List.append_inj e2 (by simp)
      have hl : sid.length = sessionId.length := beBytes_inj (by omega) (by omega) e3
      have e5 := (List.append_inj e4 hl).2
      have e6 := (List.append_inj e5 (by omega)).2
      have e7 := congrArg List.length e6
      have : 0 < tail.length := List.length_pos_iff.2 ht
      simp at e7
      omega
    rcases (serverHello_whole _ m).1 h with ⟨x, rfl, hf, he⟩ | ⟨x, rfl, hf, he⟩
    · exact key _ _ _ _ _ _ (by simp [codecVersion, codecU16]) hf.random hf.sessionId (by simp [codecU16])
        (by simp [codecU8]) (encodeVecU16_ne_nil _ _) he
    · exact key _ _ _ _ _ _ (by simp [codecVersion, codecU16]) rfl hf.sessionId (by simp [codecU16])
        (by simp [codecU8]) (encodeVecU16_ne_nil _ _) he

/-- **C65** A client hello without extensions can be written but is not read back. -/
theorem C65_client_hello_without_extensions_rejected (dnsOk : Bytes → Bool) (vers : ProtocolVersion) (h : ClientHello)
    (he : h.extensions = []) (h2 : h.random.length = 32) (h3 : h.sessionId.length ≤ 32)
    (h4 : VecFits 16 codecU16 (fun _ => True) h.cipherSuites) (h5 : VecFits 8 codecU8 (fun _ => True) h.compressionMethods)
    (hv : h.clientVersion.Canonical) :
    parseHandshake dnsOk 0x01 vers h.encode = none := by
  cases hp : parseHandshake dnsOk 0x01 vers h.encode with
  | none => rfl
  | some m =>
    exfalso
    have hl := law_version.seq (law_random.seq (law_sessionId.seq (law_u16s.seq law_u8s)))
    have hp' : ((readClientHello dnsOk).whole h.encode).map (fun h => HandshakeMessage.mk 0x01 (.clientHello h)) =
        some m := hp
    obtain ⟨h', hw, -⟩ := map_eq_some_iff'.1 hp'
    obtain ⟨hf, henc⟩ := ((endLaw_clientHello dnsOk).whole _ _).1 hw
    have e1 : h.encode = (codecVersion.seq (codecRandom.seq (codecSessionId.seq (codecU16.vecU16.seq codecU8.vecU8)))).encode
        (h.clientVersion, h.random, h.sessionId, h.cipherSuites, h.compressionMethods) ++ [] := by
      simp [ClientHello.encode, Codec.seq, he, encodeClientExtensions]
    have e2 : h'.encode = (codecVersion.seq (codecRandom.seq (codecSessionId.seq (codecU16.vecU16.seq codecU8.vecU8)))).encode
        (h'.clientVersion, h'.random, h'.sessionId, h'.cipherSuites, h'.compressionMethods) ++
          encodeClientExtensions h'.extensions := by
      simp [ClientHello.encode, Codec.seq]
    have y1 := hl.inv (h.clientVersion, h.random, h.sessionId, h.cipherSuites, h.compressionMethods)
      ⟨hv, h2, h3, h4, h5⟩ []
    have y2 := hl.inv (h'.clientVersion, h'.random, h'.sessionId, h'.cipherSuites, h'.compressionMethods)
      ⟨hf.version, hf.random, hf.sessionId, hf.suites, hf.compression⟩ (encodeClientExtensions h'.extensions)
    rw [← e1] at y1
    rw [← e2, henc] at y2
    obtain ⟨r1, a1, b1, -⟩ := y1 (Reader.init h.encode) ⟨Nat.zero_le _, rfl⟩
    obtain ⟨r2, a2, b2, -⟩ := y2 (Reader.init h.encode) ⟨Nat.zero_le _, rfl⟩
    rw [a1] at a2
    simp only [Option.some.injEq, Prod.mk.injEq] at a2
    obtain ⟨-, rfl⟩ := a2
    have hnil := b2.2.symm.trans b1.2
    unfold encodeClientExtensions at hnil
    rw [if_neg hf.some] at hnil
    exact encodeVecU16_ne_nil _ _ hnil

/-! ### The handshake hash -/

/-- Parsed handshake messages encode to the bytes they were parsed from. -/
theorem hsBytes_of_parse {dnsOk : Bytes → Bool} {t : Byte} {vers : ProtocolVersion} {b : Bytes} {m : HandshakeMessage}
    (h : parseHandshake dnsOk t vers b = some m) (hb : b.length ≤ 65535) : m.encode = hsBytes (t, b) := by
  obtain ⟨h1, h2, h3⟩ := (parseHandshake_iff dnsOk t vers b m).1 h
  have hl : m.payload.encode.length < 2 ^ 24 := by rw [h3]; omega
  have := (C65_layout_message dnsOk vers m ⟨h1, hl⟩).1
  rw [this, h2, h3]
  rfl

theorem split_encodings (dnsOk : Bytes → Bool) (vers : ProtocolVersion) (b : Bytes) :
    ((splitAll (hsFront (parseHandshake dnsOk) vers) b).1.map HandshakeMessage.encode).flatten ++
      (splitAll (hsFront (parseHandshake dnsOk) vers) b).2.2 = b := by
  obtain ⟨raw, h1, h2, h3, -, -⟩ := joined_split (parseHandshake dnsOk) vers b
  conv => rhs; rw [h1]
  congr 2
  have key : ∀ (raw : List (Byte × Bytes)) (msgs : List HandshakeMessage), (∀ m ∈ raw, m.2.length ≤ 65535) →
      raw.map (fun m => parseHandshake dnsOk m.1 vers m.2) = msgs.map some →
      msgs.map HandshakeMessage.encode = raw.map hsBytes := by
    intro raw
    induction raw with
    | nil => intro msgs _ h; cases msgs with
      | nil => rfl
      | cons a l => simp at h
    | cons r raw ih =>
      intro msgs hl h
      cases msgs with
      | nil => simp at h
      | cons a l =>
        simp only [List.map_cons, List.cons.injEq] at h
        simp only [List.map_cons]
        rw [ih l (fun m hm => hl m (by simp [hm])) h.2, hsBytes_of_parse h.1 (hl r (by simp))]
  exact key raw _ h2 h3

theorem joinRun_encodings (dnsOk : Bytes → Bool) (records : List OpaqueMessage) (j : Joiner HandshakeMessage) (n : Nat) :
    ∃ k, k ≤ records.length ∧
      (((joinRun (parseHandshake dnsOk) records j n).1.frames.map HandshakeMessage.encode).flatten ++
        (joinRun (parseHandshake dnsOk) records j n).1.buf =
      (j.frames.map HandshakeMessage.encode).flatten ++ (j.buf ++ ((records.take k).map (·.payload)).flatten)) ∧
      ((joinRun (parseHandshake dnsOk) records j n).2 ≠ none → k = records.length) := by
  induction records generalizing j n with
  | nil => exact ⟨0, Nat.le_refl _, by simp [joinRun], fun _ => rfl⟩
  | cons m ms ih =>
    have ht := joiner_take (parseHandshake dnsOk) j m
    simp only at ht
    have hs := split_encodings dnsOk m.version (j.buf ++ m.payload)
    generalize splitAll (hsFront (parseHandshake dnsOk) m.version) (j.buf ++ m.payload) = p at ht hs
    obtain ⟨msgs, bad, rest⟩ := p
    unfold joinRun
    rw [ht]
    cases bad with
    | true =>
      refine ⟨1, by simp, ?_, fun h => absurd rfl h⟩
      simp only [if_true]
      simp only at hs
      simp only [List.map_append, List.flatten_append, List.append_assoc, hs]
      simp
    | false =>
      obtain ⟨k, hk, h1, h2⟩ := ih ⟨j.frames ++ msgs, rest⟩ (n + msgs.length)
      refine ⟨k + 1, by simp [hk], ?_, fun h => by simp [h2 h]⟩
      simp only [Bool.false_eq_true, if_false]
      rw [h1]
      simp only at hs
      simp only [List.map_append, List.flatten_append, List.append_assoc, List.take_succ_cons, List.map_cons,
        List.flatten_cons]
      rw [← List.append_assoc _ rest, hs]
      simp

theorem addMessages_ctx (h : HandshakeHash) (ms : List HandshakeMessage) :
    (ms.foldl (fun h m => h.addMessage (.handshake m)) h).ctx = h.ctx ++ (ms.map HandshakeMessage.encode).flatten ∧
    (ms.foldl (fun h m => h.addMessage (.handshake m)) h).clientAuth =
      h.clientAuth.map (· ++ (ms.map HandshakeMessage.encode).flatten) ∧
    (ms.foldl (fun h m => h.addMessage (.handshake m)) h).alg = h.alg := by
  induction ms generalizing h with
  | nil => simp
  | cons m ms ih =>
    simp only [List.foldl_cons, List.map_cons, List.flatten_cons]
    obtain ⟨h1, h2, h3⟩ := ih (h.addMessage (.handshake m))
    rw [h1, h2, h3]
    simp [HandshakeHash.addMessage, HandshakeHash.updateRaw, Function.comp_def]

/-- **C66** The client hashes the messages it has parsed, by encoding them again.  Nevertheless, for every way of cutting
the handshake stream into records and whatever the records' versions, the hash is that of the bytes received: as long as
the joiner has not failed, the running hash is the hash of what was hashed before, followed by the payloads of the records
except for the last bytes, which are those of an incomplete message.  The same bytes are kept for client
authentication. -/
theorem C66_hash_of_received_bytes (dnsOk : Bytes → Bool) (records : List OpaqueMessage) (hash : HandshakeHash)
    (hok : (joinRun (parseHandshake dnsOk) records ⟨[], []⟩ 0).2 ≠ none) :
    let j := (joinRun (parseHandshake dnsOk) records ⟨[], []⟩ 0).1
    let after := j.frames.foldl (fun h m => h.addMessage (.handshake m)) hash
    ∃ received, received ++ j.buf = (records.map (·.payload)).flatten ∧
      after.currentHash = hash.alg (hash.ctx ++ received) ∧ after.clientAuth = hash.clientAuth.map (· ++ received) := by
  obtain ⟨k, -, h1, h2⟩ := joinRun_encodings dnsOk records ⟨[], []⟩ 0
  rw [h2 hok, List.take_length] at h1
  obtain ⟨a1, a2, a3⟩ := addMessages_ctx hash (joinRun (parseHandshake dnsOk) records ⟨[], []⟩ 0).1.frames
  refine ⟨_, by simpa using h1, ?_, a2⟩
  unfold HandshakeHash.currentHash
  rw [a1, a3]

/-- **C66** For a message that is sent, the bytes hashed are the payloads of the records that are written, for every
maximal fragment size. -/
theorem C66_hash_of_sent_bytes (size : Option Nat) (f : Fragmenter) (hf : Fragmenter.new size = some f)
    (version : ProtocolVersion) (m : HandshakeMessage) (hash : HandshakeHash) :
    (hash.addMessage (.handshake m)).currentHash = hash.alg (hash.ctx ++
      ((f.fragment ⟨.handshake, version, (MessagePayload.handshake m).encode⟩).map (·.payload)).flatten) := by
  rw [(C38_fragment size f hf _).1]
  rfl

/-- **C66** Buffering before the hash function is known makes no difference, and messages that are not handshake messages
are not hashed. -/
theorem C66_buffering (alg : Bytes → Bytes) (first later : List MessagePayload) :
    let bytes : List MessagePayload → Bytes := fun ms => (ms.map fun m => match m with
      | .handshake hs => hs.encode
      | _ => []).flatten
    (later.foldl HandshakeHash.addMessage
      ((first.foldl HandshakeHashBuffer.addMessage HandshakeHashBuffer.new).startHash alg)).currentHash =
        alg (bytes first ++ bytes later) ∧
    (later.foldl HandshakeHash.addMessage
      ((first.foldl HandshakeHashBuffer.addMessage HandshakeHashBuffer.new.setClientAuth).startHash alg)).clientAuth =
        some (bytes first ++ bytes later) := by
  intro bytes
  have hb : ∀ (ms : List MessagePayload) (b : HandshakeHashBuffer),
      ms.foldl HandshakeHashBuffer.addMessage b = ⟨b.buffer ++ bytes ms, b.clientAuthEnabled⟩ := by
    intro ms
    induction ms with
    | nil => intro b; simp [bytes]
    | cons m ms ih =>
      intro b
      rw [List.foldl_cons, ih]
      cases m <;> simp [HandshakeHashBuffer.addMessage, bytes]
  have hh : ∀ (ms : List MessagePayload) (h : HandshakeHash),
      ms.foldl HandshakeHash.addMessage h = ⟨h.alg, h.ctx ++ bytes ms, h.clientAuth.map (· ++ bytes ms)⟩ := by
    intro ms
    induction ms with
    | nil => intro h; simp [bytes]
    | cons m ms ih =>
      intro h
      rw [List.foldl_cons, ih]
      cases m <;> simp [HandshakeHash.addMessage, HandshakeHash.updateRaw, bytes, Function.comp_def]
  constructor
  · rw [hb, hh]; simp [HandshakeHash.currentHash, HandshakeHashBuffer.startHash, HandshakeHashBuffer.new]
  · rw [hb, hh]
    simp [HandshakeHashBuffer.startHash, HandshakeHashBuffer.new, HandshakeHashBuffer.setClientAuth]

/-- **C66** After a hello retry request the hash restarts with the synthetic message of RFC 8446, 4.4.1. -/
theorem C66_retry (h : HandshakeHash) (hl : h.currentHash.length < 2 ^ 8) :
    h.intoHrrBuffer.buffer = [0xfe, 0, 0, UInt8.ofNat h.currentHash.length] ++ h.currentHash := by
  unfold HandshakeHash.intoHrrBuffer buildHandshakeHash
  generalize h.currentHash = d at hl
  show codecU8.encode _ ++ (((beBytes 4 (UInt32.ofNat d.length).toNat).drop 1) ++ d) = _
  rw [UInt32.toNat_ofNat', Nat.mod_eq_of_lt (Nat.lt_trans hl (by decide)), drop_beBytes_succ]
  show [0xfe] ++ (beBytes 3 d.length ++ d) = _
  have : d.length < 256 := hl
  have h0 : d.length / 65536 = 0 := by omega
  simp [beBytes, Nat.mod_eq_of_lt this, Nat.div_eq_of_lt this, h0]

/-! ### Examples -/

def exampleServerHello : ServerHello :=
  ⟨.tls12, List.replicate 32 7, [1, 2, 3], 0xc02f, 0, [.renegotiationInfo [], .extendedMasterSecretAck]⟩

def exampleClientHello : ClientHello :=
  ⟨.tls12, List.replicate 32 5, [], [0xc02f, 0xc02b], [0],
    [.serverName [⟨0, .hostName [97, 46, 98]⟩], .namedGroups [0x17], .extendedMasterSecretRequest,
      .unknown 0x1234 [9]]⟩

/-- Example for C65: the bytes of a server hello, and a client hello, parsed. -/
example : parseHandshake (fun _ => true) 0x02 .tls12 ([3, 3] ++ List.replicate 32 7 ++ [3, 1, 2, 3, 0xc0, 0x2f, 0] ++
      [0, 9, 0xff, 1, 0, 1, 0, 0, 0x17, 0, 0]) = some ⟨0x02, .serverHello exampleServerHello⟩ ∧
    parseHandshake (fun b => b = [97, 46, 98]) 0x01 .tls12 ([3, 3] ++ List.replicate 32 5 ++
      [0, 0, 4, 0xc0, 0x2f, 0xc0, 0x2b, 1, 0] ++ [0, 29, 0, 0, 0, 8, 0, 6, 0, 0, 3, 97, 46, 98, 0, 10, 0, 4, 0, 2, 0, 0x17,
        0, 0x17, 0, 0, 0x12, 0x34, 0, 1, 9]) = some ⟨0x01, .clientHello exampleClientHello⟩ ∧
    parseHandshake (fun _ => false) 0x01 .tls12 exampleClientHello.encode = none := by decide +kernel

/-- Example for C65: the hypotheses of `C65_layout_hello` hold, since the messages of the previous example are accepted. -/
example : exampleClientHello.Fits (fun _ => true) ∧ exampleServerHello.Fits := by
  have h1 : parseHandshake (fun _ => true) 0x01 .tls12 exampleClientHello.encode =
      some ⟨0x01, .clientHello exampleClientHello⟩ := by decide +kernel
  have h2 : parseHandshake (fun _ => true) 0x02 .tls12 exampleServerHello.encode =
      some ⟨0x02, .serverHello exampleServerHello⟩ := by decide +kernel
  exact ⟨((parseHandshake_iff _ _ _ _ _).1 h1).1.2, ((parseHandshake_iff _ _ _ _ _).1 h2).1.2⟩

/-- Example for C65: a certificate message with two certificates; trailing bytes and a wrong inner length are rejected. -/
example : parseHandshake (fun _ => true) 0x0b .tls12 [0, 0, 9, 0, 0, 2, 8, 8, 0, 0, 1, 7] =
      some ⟨0x0b, .certificate [[8, 8], [7]]⟩ ∧
    parseHandshake (fun _ => true) 0x0b .tls12 [0, 0, 9, 0, 0, 2, 8, 8, 0, 0, 1, 7, 1] = none ∧
    parseHandshake (fun _ => true) 0x0b .tls12 [0, 0, 9, 0, 0, 2, 8, 8, 0, 0, 2, 7] = none := by decide

/-- Example for C66: a server hello and a server hello done cut in the middle; the last byte belongs to the next message. -/
example :
    let wire := (HandshakeMessage.mk 0x02 (.serverHello exampleServerHello)).encode ++ [0x0e, 0, 0, 0, 0x14]
    let j := joinRun (parseHandshake fun _ => true)
      [⟨.handshake, .tls12, wire.take 11⟩, ⟨.handshake, .tls12, wire.drop 11⟩] ⟨[], []⟩ 0
    j.2 = some 2 ∧ j.1.buf = [0x14] ∧
    (j.1.frames.foldl (fun h m => h.addMessage (.handshake m)) (HandshakeHash.mk id [] none)).currentHash = wire.dropLast := by
  decide +kernel

end Tlsn
