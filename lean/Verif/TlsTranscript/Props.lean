import Verif.TlsTranscript.BuildLemmas
import Verif.Attestation.PresentationProps

/-! # C41, C42, C67: what a TLS transcript holds -/

namespace Tlsn

/-! ## C41: the handshake hashes -/

/-- **C41** A transcript that was built from the two streams on the wire: the streams are records, their handshake is that of
TLS 1.2, the hash for the client's Finished is the hash of all messages before it in the order in which they were sent, and
so is the hash for the server's Finished, for any verify data of the client. -/
theorem C41_finished_hashes (env : TtEnv) (b : TtBuilder) (s r : Bytes) (hs : b.tlsSent = some s) (hr : b.tlsRecv = some r)
    (t : TlsTranscript) (h : b.build env = .ok t) :
    ∃ sent recv f, RecordStream s sent ∧ RecordStream r recv ∧ IsHandshake sent recv f ∧
      t.cfHash = some (env.sha256 (messageBytes f.clientFinished)) ∧
      ∀ vd : Bytes, vd.length = 12 →
        t.sfHashWith env vd = some (some (env.sha256 (messageBytes (f.serverFinished vd)))) := by
  obtain ⟨sent, recv, f, v, d, h1, h2, h3, -, -, -, -, -, -, -, -, -, h4, -, h5⟩ :=
    (build_raw_iff env b s r hs hr t).1 h
  refine ⟨sent, recv, f, h1, h2, h3, h4, fun vd hv => ?_⟩
  unfold TlsTranscript.sfHashWith
  rw [h5]
  simp only [sfHash_flights env f vd hv, Option.map_some]

/-- **C41** There is only one way to read the streams, so the hashes above are determined by the bytes on the wire. -/
theorem C41_unique (s : Bytes) (l l' : List OpaqueMessage) (h : RecordStream s l) (h' : RecordStream s l')
    (sent recv : List OpaqueMessage) (f f' : Flights) (hf : IsHandshake sent recv f) (hf' : IsHandshake sent recv f') :
    l = l' ∧ f = f' :=
  ⟨recordStream_unique h h', flights_unique hf.valid hf'.valid (hf.sent_eq.symm.trans hf'.sent_eq)
    (hf.recv_eq.symm.trans hf'.recv_eq)⟩

/-- **C41** How the handshake is split over records does not matter: two transcripts built from streams with the same
handshake bytes have the same hashes and the same fields. -/
theorem C41_fragmentation (env : TtEnv) (b b' : TtBuilder) (s r s' r' : Bytes) (hs : b.tlsSent = some s)
    (hr : b.tlsRecv = some r) (hs' : b'.tlsSent = some s') (hr' : b'.tlsRecv = some r') (t t' : TlsTranscript)
    (h : b.build env = .ok t) (h' : b'.build env = .ok t')
    (hsame : ∀ sent recv sent' recv', RecordStream s sent → RecordStream r recv → RecordStream s' sent' →
      RecordStream r' recv' → clearHandshake sent = clearHandshake sent' ∧ clearHandshake recv = clearHandshake recv') :
    t.cfHash = t'.cfHash ∧ t.sessionHash = t'.sessionHash ∧
      ∀ vd : Bytes, t.sfHashWith env vd = t'.sfHashWith env vd := by
  obtain ⟨sent, recv, f, v, d, h1, h2, h3, -, -, -, -, -, -, -, -, -, h4, h5, h6⟩ :=
    (build_raw_iff env b s r hs hr t).1 h
  obtain ⟨sent', recv', f', v', d', h1', h2', h3', -, -, -, -, -, -, -, -, -, h4', h5', h6'⟩ :=
    (build_raw_iff env b' s' r' hs' hr' t').1 h'
  obtain ⟨e1, e2⟩ := hsame _ _ _ _ h1 h2 h1' h2'
  have : f = f' := flights_unique h3.valid h3'.valid (by rw [← h3.sent_eq, ← h3'.sent_eq, e1])
    (by rw [← h3.recv_eq, ← h3'.recv_eq, e2])
  subst this
  refine ⟨by rw [h4, h4'], by rw [h5, h5'], fun vd => ?_⟩
  unfold TlsTranscript.sfHashWith
  rw [h6, h6']

/-- **C41** The session hash (RFC 7627), if the server has sent no message between the client's Finished and its change of
cipher specs. What is missing: with such a message, that is a session ticket, the hash is another one, see
`C41_session_hash_with_ticket`. -/
theorem C41_session_hash_partial (env : TtEnv) (b : TtBuilder) (s r : Bytes) (hs : b.tlsSent = some s)
    (hr : b.tlsRecv = some r) (t : TlsTranscript) (h : b.build env = .ok t) :
    ∃ sent recv f, RecordStream s sent ∧ RecordStream r recv ∧ IsHandshake sent recv f ∧
      (f.serverLast = [] → t.sessionHash = some (env.sha256 (messageBytes f.session))) := by
  obtain ⟨sent, recv, f, v, d, h1, h2, h3, -, -, -, -, -, -, -, -, -, -, h4, -⟩ :=
    (build_raw_iff env b s r hs hr t).1 h
  refine ⟨sent, recv, f, h1, h2, h3, fun hl => ?_⟩
  rw [h4]
  simp [digestsOf, Flights.session, Flights.server, hl]

/-- **C41, disagreement with RFC 7627** If the server sends a session ticket, then the session hash covers the ticket,
although it was sent after the client key exchange, and the hashed bytes are not those of the session. -/
theorem C41_session_hash_with_ticket (env : TtEnv) (b : TtBuilder) (s r : Bytes) (hs : b.tlsSent = some s)
    (hr : b.tlsRecv = some r) (t : TlsTranscript) (h : b.build env = .ok t) :
    ∃ sent recv f, RecordStream s sent ∧ RecordStream r recv ∧ IsHandshake sent recv f ∧
      ∃ bytes, t.sessionHash = some (env.sha256 bytes) ∧
        bytes = messageBytes ([(0x01, f.clientHello)] ++ f.serverFirst ++ [(0x0e, [])] ++ f.serverLast ++ f.beforeKx ++
          [(0x10, f.clientKx)]) ∧
        (f.serverLast ≠ [] → bytes ≠ messageBytes f.session) := by
  obtain ⟨sent, recv, f, v, d, h1, h2, h3, -, -, -, -, -, -, -, -, -, -, h4, -⟩ :=
    (build_raw_iff env b s r hs hr t).1 h
  refine ⟨sent, recv, f, h1, h2, h3, _, h4, by simp [Flights.server], fun hl he => hl ?_⟩
  have := congrArg List.length he
  simp only [Flights.session, Flights.server, messageBytes, List.flatMap_cons, List.flatMap_append, List.length_append,
    List.flatMap_nil, List.length_nil] at this
  cases hsl : f.serverLast with
  | nil => rfl
  | cons m l =>
    rw [hsl] at this
    simp only [List.flatMap_cons, List.length_append, hsBytes_length] at this
    omega

/-- **C41** Without both streams there are no hashes. -/
theorem C41_no_hash_without_streams (env : TtEnv) (b : TtBuilder) (hn : b.tlsSent = none ∨ b.tlsRecv = none)
    (t : TlsTranscript) (h : b.build env = .ok t) :
    t.cfHash = none ∧ t.sessionHash = none ∧ ∀ vd, t.sfHashWith env vd = some none := by
  obtain ⟨sent, recv, b', x, h1, h2, h3, -, -, -, -, -, -, -, h4, h5, h6⟩ := (build_iff env b t).1 h
  have hx : x = none := by
    rcases hn with hn | hn
    · rw [hn] at h1
      obtain rfl := Outcome.ok.inj h1
      exact (Prod.mk.inj (Outcome.ok.inj h3)).2.symm
    · rw [hn] at h2
      obtain rfl := Outcome.ok.inj h2
      cases sent <;> exact (Prod.mk.inj (Outcome.ok.inj h3)).2.symm
  subst hx
  refine ⟨h4, h5, fun vd => ?_⟩
  unfold TlsTranscript.sfHashWith
  rw [h6]
  rfl

/-- **C41, C42, C67** Which streams are accepted, if nothing but the time and maybe the application data is given, and what
is made of them: a transcript is built exactly if both streams consist of legal records, hold a handshake of TLS 1.2 all of
whose messages can be read, with the fields of the transcript in it, and go on with encrypted records after the change of
cipher specs. -/
theorem C41_accepts (env : TtEnv) (time : Nat) (s r : Bytes) (appSent appRecv : Option Bytes) (t : TlsTranscript) :
    ({ time := some time, tlsSent := some s, tlsRecv := some r, appSent, appRecv } : TtBuilder).build env = .ok t ↔
      ∃ sent recv f v d, RecordStream s sent ∧ RecordStream r recv ∧ IsHandshake sent recv f ∧ MessagesParse env f ∧
        WireFields env f v d ∧ t.time = time ∧ t.version = v ∧
        t.certificateBinding = ⟨d.clientRandom, d.serverRandom, d.serverEphemeralKey⟩ ∧
        t.serverSignature = some ⟨d.sigAlg, d.sig⟩ ∧ t.serverCertChain = some d.certs ∧
        RecordsOfWire (protectedRecords sent) appSent t.sent ∧ RecordsOfWire (protectedRecords recv) appRecv t.recv ∧
        t.cfHash = some (digestsOf env f).1 ∧ t.sessionHash = some (digestsOf env f).2.1 ∧
        t.sfHash = some (digestsOf env f).2.2 := by
  rw [build_raw_iff env _ s r rfl rfl t]
  simp only [DirectionOk, Option.some.injEq, exists_eq_left', Option.getD_none]
  constructor
  · rintro ⟨sent, recv, f, v, d, h1, h2, h3, h4, h5, h6, h⟩
    exact ⟨sent, recv, f, v, d, h1, h2, h3, h4, h5, h6.symm, h⟩
  · rintro ⟨sent, recv, f, v, d, h1, h2, h3, h4, h5, h6, h⟩
    exact ⟨sent, recv, f, v, d, h1, h2, h3, h4, h5, h6.symm, h⟩

/-! ## C67: the fields of the handshake -/

/-- **C67** The version, the certificates, the signature with its algorithm, the randoms and the server's ephemeral key of a
transcript are those in the handshake on the wire, unless they were set explicitly. -/
theorem C67_fields (env : TtEnv) (b : TtBuilder) (s r : Bytes) (hs : b.tlsSent = some s) (hr : b.tlsRecv = some r)
    (t : TlsTranscript) (h : b.build env = .ok t) :
    ∃ sent recv f v d, RecordStream s sent ∧ RecordStream r recv ∧ IsHandshake sent recv f ∧ WireFields env f v d ∧
      t.version = b.version.getD v ∧ t.serverCertChain = some (b.serverCertChain.getD d.certs) ∧
      t.serverSignature = some (b.serverSignature.getD ⟨d.sigAlg, d.sig⟩) ∧
      t.certificateBinding = b.certificateBinding.getD ⟨d.clientRandom, d.serverRandom, d.serverEphemeralKey⟩ := by
  obtain ⟨sent, recv, f, v, d, h1, h2, h3, -, h4, -, h5, h6, h7, h8, -⟩ := (build_raw_iff env b s r hs hr t).1 h
  exact ⟨sent, recv, f, v, d, h1, h2, h3, h4, h5, h8, h7, h6⟩

/-- **C67** The handshake on the wire determines these fields. -/
theorem C67_unique (env : TtEnv) (f : Flights) (v v' : TlsVersion) (d d' : HandshakeData) (h : WireFields env f v d)
    (h' : WireFields env f v' d') : v = v' ∧ d = d' := by
  obtain ⟨certs, alg, sig, cr, sr, ⟨key⟩⟩ := d
  obtain ⟨certs', alg', sig', cr', sr', ⟨key'⟩⟩ := d'
  have hvl : ∀ v, (helloVersion v).length = 2 := by intro v; cases v <;> rfl
  obtain ⟨cv, rest, hcv, e1⟩ := h.clientHello
  obtain ⟨cv', rest', hcv', e1'⟩ := h'.clientHello
  rw [e1] at e1'
  obtain ⟨-, a2⟩ := List.append_inj e1' (by omega)
  have hcr := Vector.toList_inj.1 (List.append_inj a2 (by simp)).1
  obtain ⟨b1, rest1, a1, e2, n1, g1⟩ := h.serverHello
  obtain ⟨b2, rest2, a2, e2', n2, g2⟩ := h'.serverHello
  have hrnd : ∀ (v : TlsVersion) (x : Vector Byte 32) (rest : Bytes),
      ((helloVersion v ++ (x.toList ++ rest)).drop 2).take 32 = x.toList := by
    intro v x rest
    rw [List.drop_append_of_le_length (by rw [hvl]), List.drop_of_length_le (by rw [hvl]), List.nil_append,
      List.take_append_of_le_length (by simp), List.take_of_length_le (by simp)]
  have hsh : helloVersion v ++ (sr.toList ++ rest1) = helloVersion v' ++ (sr'.toList ++ rest2) := by
    rw [e2] at e2'
    have key : ∀ (b1 b2 : List (Byte × Bytes)) (x y : Bytes) (c1 c2 : List (Byte × Bytes)),
        b1 ++ (0x02, x) :: c1 = b2 ++ (0x02, y) :: c2 →
        (x.drop 2).take 32 ≠ helloRetryRandom → (y.drop 2).take 32 ≠ helloRetryRandom →
        (∀ m ∈ b1, m.1 = 0x02 → (m.2.drop 2).take 32 = helloRetryRandom) →
        (∀ m ∈ b2, m.1 = 0x02 → (m.2.drop 2).take 32 = helloRetryRandom) → x = y := by
      intro b1
      induction b1 with
      | nil =>
        intro b2 x y c1 c2 he hx hy h1 h2
        cases b2 with
        | nil => simpa using (List.cons.inj he).1
        | cons m b2 =>
          obtain ⟨rfl, -⟩ := List.cons.inj he
          exact absurd (h2 (0x02, x) (by simp) rfl) hx
      | cons m b1 ih =>
        intro b2 x y c1 c2 he hx hy h1 h2
        cases b2 with
        | nil =>
          obtain ⟨rfl, -⟩ := List.cons.inj he
          exact absurd (h1 (0x02, y) (by simp) rfl) hy
        | cons m' b2 =>
          obtain ⟨rfl, he'⟩ := List.cons.inj he
          exact ih b2 x y c1 c2 he' hx hy (fun m hm => h1 m (by simp [hm])) (fun m hm => h2 m (by simp [hm]))
    exact key _ _ _ _ _ _ e2' (by rw [hrnd]; exact n1) (by rw [hrnd]; exact n2) g1 g2
  obtain ⟨s1, s2⟩ := List.append_inj hsh (by rw [hvl, hvl])
  have hsr := Vector.toList_inj.1 (List.append_inj s2 (by simp)).1
  have hv : v = v' := by
    cases v <;> cases v' <;> first | rfl | (exact absurd s1 (by decide))
  obtain ⟨c1, l1⟩ := h.certificate
  obtain ⟨c2, l2⟩ := h'.certificate
  have hcerts := lengthPrefixed3_flatten_inj l1 l2 (lengthPrefixed_inj' (firstOf_unique c1 c2))
  obtain ⟨sc1, k1, p1, p2, p3, p4⟩ := h.keyExchange
  obtain ⟨sc2, k2, q1, q2, q3, q4⟩ := h'.keyExchange
  obtain ⟨hk, hsc, hsig⟩ := keyExchangeBody_inj p2 q2 p1 q1 (firstOf_unique k1 k2)
  simp only at hk hsig hcerts
  subst hk hsc hsig hcerts hcr hsr hv
  have := schemeIs_unique p4 q4
  simp only at this
  subst this
  exact ⟨rfl, rfl⟩

/-- **C67** The server's signature is checked over bytes of the wire: if the handshake data of a transcript verifies, then
under the key of the certificate on the wire, the signature on the wire is a signature over the random of the client hello,
the random of the server hello, and the parameters at the beginning of the key exchange message. -/
theorem C67_signed_bytes (env : TtEnv) (f : Flights) (v : TlsVersion) (d : HandshakeData) (h : WireFields env f v d)
    (cv : CertVerifier) (time : Nat) (key : ServerEphemKey) (name : ServerName) (hv : d.verify cv time key name = .ok ()) :
    ∃ sh params scheme cert chain, (0x02, sh) ∈ f.server ∧
      FirstOf f.server 0x0c (params ++ (beBytes 2 scheme ++ lengthPrefixed 2 d.sig)) ∧
      FirstOf f.server 0x0b (lengthPrefixed 3 ((cert :: chain).map (lengthPrefixed 3)).flatten) ∧
      params = [0x03, 0x00, 0x17] ++ lengthPrefixed 1 key.key ∧
      SchemeIs (env.curve cert) scheme d.sigAlg ∧
      cv.sigOk cert d.sigAlg ((f.clientHello.drop 2).take 32 ++ (sh.drop 2).take 32 ++ params) d.sig = true := by
  obtain ⟨rfl, cert, chain, hc, -, -, -, hs⟩ := (C24_verify_iff d cv time key name).1 hv
  obtain ⟨b, rest, a, e, -, -⟩ := h.serverHello
  obtain ⟨scheme, k1, -, k2, -, k3⟩ := h.keyExchange
  obtain ⟨c1, -⟩ := h.certificate
  obtain ⟨w, rest', hw, e'⟩ := h.clientHello
  refine ⟨helloVersion v ++ (d.serverRandom.toList ++ rest), [0x03, 0x00, 0x17] ++ lengthPrefixed 1 d.serverEphemeralKey.key,
    scheme, cert, chain, by rw [e]; simp, k1, by rw [← hc]; exact c1, rfl, ?_, ?_⟩
  · rw [hc] at k3; exact k3
  · have hvl : (helloVersion v).length = 2 := by cases v <;> rfl
    have h1 : (f.clientHello.drop 2).take 32 = d.clientRandom.toList := by
      rw [e', List.drop_append_of_le_length (by omega), List.drop_of_length_le (by omega), List.nil_append,
        List.take_append_of_le_length (by simp), List.take_of_length_le (by simp)]
    have h2 : ((helloVersion v ++ (d.serverRandom.toList ++ rest)).drop 2).take 32 = d.serverRandom.toList := by
      rw [List.drop_append_of_le_length (by omega), List.drop_of_length_le (by omega), List.nil_append,
        List.take_append_of_le_length (by simp), List.take_of_length_le (by simp)]
    rw [h1, h2, ← payloadU8_eq k2]
    exact hs

/-! ## C42: the records -/

/-- **C42** The records of a transcript, however it was built: both directions start with a handshake record with sequence
number zero, which is a Finished message if its plaintext is known, and the sequence numbers increase. -/
theorem C42_records (env : TtEnv) (b : TtBuilder) (t : TlsTranscript) (h : b.build env = .ok t) :
    RecordsOk t.sent ∧ RecordsOk t.recv := by
  obtain ⟨sent, recv, b', x, -, -, -, -, -, -, -, -, h1, h2, -⟩ := (build_iff env b t).1 h
  exact ⟨recordsOk_of_direction h1, recordsOk_of_direction h2⟩

/-- **C42** A transcript of given records (and given fields): it is built exactly if the records are right, and it holds what
was given. -/
theorem C42_given_iff (env : TtEnv) (b : TtBuilder) (hs : b.tlsSent = none) (hr : b.tlsRecv = none)
    (sent recv : List Record) (h1 : b.recordsSent = some sent) (h2 : b.recordsRecv = some recv) (t : TlsTranscript) :
    b.build env = .ok t ↔ RecordsOk sent ∧ RecordsOk recv ∧ b.time = some t.time ∧ b.version = some t.version ∧
      b.certificateBinding = some t.certificateBinding ∧ t.serverSignature = b.serverSignature ∧
      t.serverCertChain = b.serverCertChain ∧ t.sent = sent ∧ t.recv = recv ∧ t.cfHash = none ∧ t.sessionHash = none ∧
      t.sfHash = none := by
  rw [build_iff]
  simp only [parseRawOpt_iff, hs, hr]
  constructor
  · rintro ⟨_, _, b', x, rfl, rfl, h3, h4, h5, h6, h7, h8, h9, h10, h11, h12, h13⟩
    obtain ⟨rfl, rfl⟩ := Prod.mk.inj (Outcome.ok.inj h3)
    simp only [DirectionOk, h1, h2] at h9 h10
    exact ⟨h9.2, h10.2, h4, h5, h6, h7, h8, h9.1, h10.1, h11, h12, h13⟩
  · rintro ⟨h9, h10, h4, h5, h6, h7, h8, e1, e2, h11, h12, h13⟩
    refine ⟨none, none, b, none, rfl, rfl, rfl, h4, h5, h6, h7, h8, ?_, ?_, h11, h12, h13⟩
    · simp only [DirectionOk, h1]; exact ⟨e1, h9⟩
    · simp only [DirectionOk, h2]; exact ⟨e2, h10⟩

/-- **C42** Records that were given are kept, also if there are streams. -/
theorem C42_given_kept (env : TtEnv) (b : TtBuilder) (t : TlsTranscript) (h : b.build env = .ok t) :
    (∀ l, b.recordsSent = some l → t.sent = l) ∧ ∀ l, b.recordsRecv = some l → t.recv = l := by
  obtain ⟨sent, recv, b', x, -, -, h3, -, -, -, -, -, h1, h2, -⟩ := (build_iff env b t).1 h
  have hb : b'.recordsSent = b.recordsSent ∧ b'.recordsRecv = b.recordsRecv := by
    cases sent with
    | none => obtain ⟨rfl, -⟩ := Prod.mk.inj (Outcome.ok.inj h3); exact ⟨rfl, rfl⟩
    | some s =>
      cases recv with
      | none => obtain ⟨rfl, -⟩ := Prod.mk.inj (Outcome.ok.inj h3); exact ⟨rfl, rfl⟩
      | some r =>
        simp only [TtBuilder.hashes, Outcome.bind_eq_ok, Outcome.ok.injEq, Prod.mk.injEq] at h3
        obtain ⟨⟨b'', y⟩, h3, rfl, rfl⟩ := h3
        obtain ⟨f, v, d, -, -, -, rfl, -⟩ := (components_iff' _ _ _ _ _ _).1 h3
        exact ⟨rfl, rfl⟩
  rw [hb.1] at h1
  rw [hb.2] at h2
  constructor
  · intro l hl
    rw [hl] at h1
    exact h1.1
  · intro l hl
    rw [hl] at h2
    exact h2.1

/-- **C42** Records that were not given are those on the wire after the change of cipher specs, numbered from zero, with the
application data distributed over them. -/
theorem C42_records_of_wire (env : TtEnv) (b : TtBuilder) (s r : Bytes) (hs : b.tlsSent = some s) (hr : b.tlsRecv = some r)
    (t : TlsTranscript) (h : b.build env = .ok t) :
    ∃ sent recv, RecordStream s sent ∧ RecordStream r recv ∧
      (b.recordsSent = none → RecordsOfWire (protectedRecords sent) b.appSent t.sent) ∧
      (b.recordsRecv = none → RecordsOfWire (protectedRecords recv) b.appRecv t.recv) := by
  obtain ⟨sent, recv, f, v, d, h1, h2, -, -, -, -, -, -, -, -, h3, h4, -⟩ := (build_raw_iff env b s r hs hr t).1 h
  refine ⟨sent, recv, h1, h2, fun hn => ?_, fun hn => ?_⟩
  · rw [hn] at h3
    obtain ⟨w, hw, h3⟩ := h3
    obtain rfl := Option.some.inj hw
    exact h3
  · rw [hn] at h4
    obtain ⟨w, hw, h4⟩ := h4
    obtain rfl := Option.some.inj hw
    exact h4

/-- **C42** The records are determined by the wire and the application data. -/
theorem C42_records_unique (wire : List OpaqueMessage) (app : Option Bytes) (l l' : List Record)
    (h : RecordsOfWire wire app l) (h' : RecordsOfWire wire app l') : l = l' :=
  recordsOfWire_unique h h'

/-- **C42** `to_transcript` returns the plaintexts of all application data records, one after the other. -/
theorem C42_to_transcript (t : TlsTranscript) (tr : Transcript) :
    t.toTranscript = .ok tr ↔ AppData t.sent tr.sent ∧ AppData t.recv tr.received := by
  unfold TlsTranscript.toTranscript
  simp only [Outcome.bind_eq_ok, Outcome.ok.injEq, collectApp_iff]
  constructor
  · rintro ⟨s, h1, r, h2, rfl⟩; exact ⟨h1, h2⟩
  · rintro ⟨h1, h2⟩; exact ⟨_, h1, _, h2, rfl⟩

/-- **C42** It fails exactly if the plaintext of an application data record is missing, and the error names the first such
record, of the sent direction if there is one there. -/
theorem C42_to_transcript_error (t : TlsTranscript) (e : TtError) :
    t.toTranscript = .err e ↔
      (∃ before r after, t.sent = before ++ r :: after ∧
        (∀ x ∈ before, x.typ = .applicationData → x.plaintext ≠ none) ∧
        r.typ = .applicationData ∧ r.plaintext = none ∧ e = .incomplete .sent r.seq) ∨
      ((∃ data, AppData t.sent data) ∧ ∃ before r after, t.recv = before ++ r :: after ∧
        (∀ x ∈ before, x.typ = .applicationData → x.plaintext ≠ none) ∧
        r.typ = .applicationData ∧ r.plaintext = none ∧ e = .incomplete .received r.seq) := by
  rw [← collectApp_err .sent, ← collectApp_err .received]
  have hx : (∃ data, AppData t.sent data) ↔ ∃ data, TlsTranscript.collectApp .sent t.sent = .ok data := by
    simp only [collectApp_iff]
  rw [hx]
  unfold TlsTranscript.toTranscript
  cases h1 : TlsTranscript.collectApp .sent t.sent with
  | ok s =>
    cases h2 : TlsTranscript.collectApp .received t.recv with
    | ok r => simp [Outcome.bind_ok]
    | err e' => simp [Outcome.bind_ok, Outcome.bind_err]
    | panic => simp [Outcome.bind_ok, Outcome.bind_panic]
  | err e' => simp [Outcome.bind_err]
  | panic => simp [Outcome.bind_panic]

/-- **C42** It never panics. -/
theorem C42_to_transcript_total (t : TlsTranscript) : t.toTranscript ≠ .panic := by
  have key : ∀ d l, TlsTranscript.collectApp d l ≠ .panic := by
    intro d l
    induction l with
    | nil => simp [TlsTranscript.collectApp]
    | cons r l ih =>
      unfold TlsTranscript.collectApp
      split
      · split
        · simp
        · cases h : TlsTranscript.collectApp d l with
          | ok v => simp [Outcome.bind_ok]
          | err v => simp [Outcome.bind_err]
          | panic => exact absurd h ih
      · exact ih
  unfold TlsTranscript.toTranscript
  cases h1 : TlsTranscript.collectApp .sent t.sent with
  | ok s =>
    cases h2 : TlsTranscript.collectApp .received t.recv with
    | ok r => simp [Outcome.bind_ok]
    | err e' => simp [Outcome.bind_ok, Outcome.bind_err]
    | panic => exact absurd h2 (key _ _)
  | err e' => simp [Outcome.bind_err]
  | panic => exact absurd h1 (key _ _)

/-- **C42** A transcript of two streams with the application data of both: `to_transcript` returns as many bytes of the
application data as the records hold, of which there are enough. -/
theorem C42_transcript_of_streams (env : TtEnv) (b : TtBuilder) (s r as ar : Bytes) (hs : b.tlsSent = some s)
    (hr : b.tlsRecv = some r) (h1 : b.recordsSent = none) (h2 : b.recordsRecv = none) (h3 : b.appSent = some as)
    (h4 : b.appRecv = some ar) (t : TlsTranscript) (h : b.build env = .ok t) :
    t.toTranscript = .ok ⟨as.take (appLength t.sent), ar.take (appLength t.recv)⟩ ∧
    appLength t.sent ≤ as.length ∧ appLength t.recv ≤ ar.length := by
  obtain ⟨sent, recv, -, -, h5, h6⟩ := C42_records_of_wire env b s r hs hr t h
  have h5 := h5 h1
  have h6 := h6 h2
  rw [h3] at h5
  rw [h4] at h6
  exact ⟨(C42_to_transcript _ _).2 ⟨recordsOfWire_appData h5, recordsOfWire_appData h6⟩, (h5.known _ rfl).1,
    (h6.known _ rfl).1⟩

/-- **C42, disagreement** Application data beyond what the records hold is ignored: the same transcript is built with it and
without. -/
theorem C42_surplus_ignored (wire : List OpaqueMessage) (a more : Bytes) (l : List Record)
    (h : RecordsOfWire wire (some a) l) : RecordsOfWire wire (some (a ++ more)) l := by
  refine ⟨h.first, h.len, h.enc, h.other, by simp, ?_⟩
  rintro _ ⟨⟩
  obtain ⟨h1, h2⟩ := h.known a rfl
  refine ⟨by simp; omega, fun i r hi ht => ?_⟩
  rw [h2 i r hi ht]
  have hle : appLength (l.take i) + r.ciphertext.length ≤ appLength l := by
    have hi' : i < l.length := by
      by_contra hc
      rw [List.getElem?_eq_none (by omega)] at hi
      cases hi
    have hd : l = l.take i ++ r :: l.drop (i + 1) := by
      have hg : l[i] = r := by rw [List.getElem?_eq_getElem hi'] at hi; exact Option.some.inj hi
      rw [← hg, ← List.drop_eq_getElem_cons hi', List.take_append_drop]
    have e : appLength l = appLength (l.take i) + (r.ciphertext.length + appLength (l.drop (i + 1))) := by
      conv_lhs => rw [hd]
      rw [← appLength_cons_app ht]
      simp [appLength]
    omega
  rw [List.drop_append_of_le_length (by omega), List.take_append_of_le_length (by simp; omega)]

/-- **C42** The verify data of a Finished message whose plaintext is known. -/
theorem C42_verify_data (t : TlsTranscript) (first : Record) (rest : List Record) (vd : Bytes)
    (hp : first.plaintext = some (hsBytes (0x14, vd))) :
    (t.sent = first :: rest → t.cfVd = some (some vd)) ∧ (t.recv = first :: rest → t.sfVd = some (some vd)) := by
  have hd : TlsTranscript.dropHeader (hsBytes (0x14, vd)) = some vd := by
    unfold TlsTranscript.dropHeader
    rw [if_pos (by rw [hsBytes_length]; omega)]
    congr 1
  constructor <;> intro h
  · simp [TlsTranscript.cfVd, TlsTranscript.clientFinished, h, hp, hd]
  · simp [TlsTranscript.sfVd, TlsTranscript.serverFinished, h, hp, hd]

/-- **C42** The accessors for the Finished messages do not panic on a transcript that was built. -/
theorem C42_accessors_total (env : TtEnv) (b : TtBuilder) (t : TlsTranscript) (h : b.build env = .ok t) :
    t.clientFinished ≠ none ∧ t.serverFinished ≠ none ∧ t.cfVd ≠ none ∧ t.sfVd ≠ none := by
  obtain ⟨⟨⟨f, rest, h1, -⟩, -⟩, ⟨f', rest', h2, -⟩, -⟩ := C42_records env b t h
  simp [TlsTranscript.cfVd, TlsTranscript.sfVd, TlsTranscript.clientFinished, TlsTranscript.serverFinished, h1, h2]

theorem components_no_panic (env : TtEnv) (b : TtBuilder) (sent recv : List OpaqueMessage) :
    b.parseHandshakeComponents env sent recv ≠ .panic := by
  intro h
  unfold TtBuilder.parseHandshakeComponents at h
  cases h1 : parseHandshakeStream env sent with
  | panic => exact parseStream_no_panic _ _ h1
  | err e => rw [h1] at h; cases h
  | ok p1 =>
    obtain ⟨sb, cms⟩ := p1
    rw [h1, Outcome.bind_ok] at h
    cases h2 : parseHandshakeStream env recv with
    | panic => exact parseStream_no_panic _ _ h2
    | err e => rw [h2] at h; cases h
    | ok p2 =>
      obtain ⟨rb, rms⟩ := p2
      rw [h2, Outcome.bind_ok] at h
      obtain ⟨rfl, hc, hcb⟩ := (parseStream_iff _ _ _ _).1 h1
      obtain ⟨rfl, hr, hrb⟩ := (parseStream_iff _ _ _ _).1 h2
      have lc : ∀ m ∈ cms.map (·.raw), m.2.length < 2 ^ 24 := by
        intro m hm
        obtain ⟨a, ha, rfl⟩ := List.mem_map.1 hm
        exact (hc a ha).2
      have lr : ∀ m ∈ rms.map (·.raw), m.2.length < 2 ^ 24 := by
        intro m hm
        obtain ⟨a, ha, rfl⟩ := List.mem_map.1 hm
        exact (hr a ha).2
      simp only [hcb, hrb, scan_messages _ lc, scan_messages _ lr, Outcome.bind_ok] at h
      cases h3 : extractHandshake env cms rms with
      | ok vd =>
        rw [h3, Outcome.bind_ok] at h
        cases h4 : computeHandshakeHashes env (messageBytes (cms.map (·.raw))) (messageBytes (rms.map (·.raw)))
            (ends 0 (cms.map (·.raw))) (ends 0 (rms.map (·.raw))) with
        | ok x => rw [h4] at h; cases h
        | err e => rw [h4] at h; cases h
        | panic => exact compute_no_panic _ _ _ h4
      | err e => rw [h3] at h; cases h
      | panic =>
        have orp : ∀ {α : Type} (o : Option α), orParse o ≠ .panic := by intro α o; cases o <;> simp [orParse]
        have bnp : ∀ {α β : Type} (x : Outcome TtError α) (g : α → Outcome TtError β), x ≠ .panic →
            (∀ a, g a ≠ .panic) → (x >>= g) ≠ .panic := by
          intro α β x g hx hg
          cases x with
          | ok a => exact hg a
          | err e => simp [Outcome.bind_err]
          | panic => exact absurd rfl hx
        refine (?_ : extractHandshake env cms rms ≠ .panic) h3
        unfold extractHandshake
        refine bnp _ _ (bnp _ _ (orp _) fun _ => bnp _ _ (orp _) fun _ => by simp) fun _ =>
          bnp _ _ (bnp _ _ (orp _) fun _ => by simp) fun _ => bnp _ _ (orp _) fun certs => bnp _ _ ?_ fun _ => by simp
        refine bnp _ _ (orp _) fun _ => bnp _ _ (orp _) fun e => ?_
        split
        · simp
        · refine bnp _ _ ?_ fun _ => by simp
          have hcv : ∀ p q, (extractCurve env certs >>= byCurve p q) ≠ .panic := by
            intro p q
            refine bnp _ _ ?_ fun c => ?_
            · unfold extractCurve; split
              · simp
              · exact orp _
            · cases c <;> simp [byCurve]
          unfold mapSignatureScheme
          repeat' split
          all_goals first | exact hcv _ _ | simp

/-- **C42** Building a transcript panics only if an empty list of records was given. -/
theorem C42_build_panics_only_on_empty (env : TtEnv) (b : TtBuilder) (h : b.build env = .panic) :
    b.recordsSent = some [] ∨ b.recordsRecv = some [] := by
  have bnp : ∀ {α β : Type} {x : Outcome TtError α} {g : α → Outcome TtError β}, (x >>= g) = .panic →
      x = .panic ∨ ∃ a, x = .ok a ∧ g a = .panic := by
    intro α β x g hx
    cases x with
    | ok a => exact .inr ⟨a, rfl, hx⟩
    | err e => cases hx
    | panic => exact .inl rfl
  have orm : ∀ {α : Type} (o : Option α), orMissing o ≠ .panic := by intro α o; cases o <;> simp [orMissing]
  have raw : ∀ o, parseRawOpt o ≠ .panic := by
    intro o hp
    cases o with
    | none => cases hp
    | some s =>
      rcases bnp hp with hp | ⟨a, -, hp⟩
      · exact parseRaw_no_panic _ hp
      · cases hp
  have dir : ∀ g w a, directionRecords env g w a = .panic → g = some [] := by
    intro g w a hp
    unfold directionRecords at hp
    split at hp
    · rfl
    · rcases bnp hp with hp | ⟨_, -, hp⟩
      · rename_i f _ _
        rcases validateFinished_cases env f with h1 | h1 <;> rw [h1] at hp <;> cases hp
      · cases hp
    · split at hp
      · exact absurd hp (parseRecords_no_panic _ _)
      · cases hp
  have seq : ∀ l, validateSeq l ≠ .panic := by
    intro l hp
    rcases validateSeq_cases l with h1 | h1 <;> rw [h1] at hp <;> cases hp
  unfold TtBuilder.build at h
  rcases bnp h with h | ⟨time, -, h⟩
  · exact absurd h (orm _)
  rcases bnp h with h | ⟨sent, -, h⟩
  · exact absurd h (raw _)
  rcases bnp h with h | ⟨recv, -, h⟩
  · exact absurd h (raw _)
  have hashes : ∀ b' x, b.hashes env sent recv = .ok (b', x) →
      b'.recordsSent = b.recordsSent ∧ b'.recordsRecv = b.recordsRecv := by
    intro b' x h3
    cases sent with
    | none => obtain ⟨rfl, -⟩ := Prod.mk.inj (Outcome.ok.inj h3); exact ⟨rfl, rfl⟩
    | some s =>
      cases recv with
      | none => obtain ⟨rfl, -⟩ := Prod.mk.inj (Outcome.ok.inj h3); exact ⟨rfl, rfl⟩
      | some r =>
        simp only [TtBuilder.hashes, Outcome.bind_eq_ok, Outcome.ok.injEq, Prod.mk.injEq] at h3
        obtain ⟨⟨b'', y⟩, h3, rfl, rfl⟩ := h3
        obtain ⟨f, v, d, -, -, -, rfl, -⟩ := (components_iff' _ _ _ _ _ _).1 h3
        exact ⟨rfl, rfl⟩
  rcases bnp h with h | ⟨⟨b', x⟩, hb, h⟩
  · cases sent with
    | none => cases h
    | some s =>
      cases recv with
      | none => cases h
      | some r =>
        rcases bnp h with h | ⟨_, -, h⟩
        · exact absurd h (components_no_panic _ _ _ _)
        · cases h
  obtain ⟨e1, e2⟩ := hashes b' x hb
  rcases bnp h with h | ⟨rs, -, h⟩
  · exact .inl (e1 ▸ dir _ _ _ h)
  rcases bnp h with h | ⟨_, -, h⟩
  · exact absurd h (seq _)
  rcases bnp h with h | ⟨rr, -, h⟩
  · exact .inr (e2 ▸ dir _ _ _ h)
  rcases bnp h with h | ⟨_, -, h⟩
  · exact absurd h (seq _)
  rcases bnp h with h | ⟨v, -, h⟩
  · exact absurd h (orm _)
  rcases bnp h with h | ⟨c, -, h⟩
  · exact absurd h (orm _)
  cases h

/-- **C42, disagreement** And it does so, where an error is documented: the sent records are given as an empty list. -/
theorem C42_empty_records_panic (env : TtEnv) (b : TtBuilder) (hs : b.tlsSent = none) (hr : b.tlsRecv = none)
    (time : Nat) (ht : b.time = some time) (h : b.recordsSent = some []) : b.build env = .panic := by
  unfold TtBuilder.build
  rw [hs, hr, ht]
  show directionRecords env b.recordsSent none b.appSent >>= _ = _
  rw [h]
  rfl

/-! ## Examples: a whole connection

The hash function is the identity, so that the hashes below are the bytes that are hashed. -/

namespace TtExample

def built : Outcome TtError TlsTranscript → Bool
  | .ok _ => true
  | _ => false

def env : TtEnv := ⟨fun _ => true, id, fun _ => some .p256⟩

/-- Version 3.3, a random, no session id, one cipher suite, one compression method, one extension. -/
def clientHello : Bytes :=
  [3, 3] ++ List.replicate 32 0xaa ++ [0] ++ [0, 2, 0xc0, 0x2f] ++ [1, 0] ++ [0, 4, 0x00, 0x17, 0, 0]

def serverHello : Bytes := [3, 3] ++ List.replicate 32 0xbb ++ [0] ++ [0xc0, 0x2f] ++ [0] ++ [0, 0]

/-- One certificate of two bytes. -/
def certificate : Bytes := [0, 0, 5, 0, 0, 2, 0x77, 0x78]

/-- A key of three bytes and a signature of two, with the scheme for ECDSA and SHA-256. -/
def keyExchange : Bytes := [3, 0, 0x17, 3, 4, 5, 6, 0x04, 0x03, 0, 2, 9, 8]

def flights (ticket : List (Byte × Bytes)) : Flights :=
  ⟨clientHello, [(0x02, serverHello), (0x0b, certificate), (0x0c, keyExchange)], [], [1, 7], [], ticket⟩

def hsRecord (b : Bytes) : OpaqueMessage := ⟨.handshake, .tls12, b⟩

/-- An encrypted record: nonce, ciphertext and tag. -/
def encrypted (typ : ContentType) (n : Byte) (text : Bytes) : OpaqueMessage :=
  ⟨typ, .tls12, List.replicate 8 n ++ text ++ List.replicate 16 (n + 1)⟩

def ending : List OpaqueMessage :=
  [⟨.changeCipherSpec, .tls12, [1]⟩, encrypted .handshake 10 (List.replicate 16 1), encrypted .applicationData 20 [1, 2, 3],
    encrypted .alert 30 [1, 0], encrypted .applicationData 40 [4, 5]]

/-- One record for each message. -/
def sent : List OpaqueMessage := ((flights []).client.map fun m => hsRecord (hsBytes m)) ++ ending

/-- The same messages in records of another size. -/
def sent' : List OpaqueMessage :=
  [hsRecord ((messageBytes (flights []).client).take 10), hsRecord ((messageBytes (flights []).client).drop 10)] ++ ending

def recv (ticket : List (Byte × Bytes)) : List OpaqueMessage :=
  ((flights ticket).server.map fun m => hsRecord (hsBytes m)) ++ ending

def builder (s r : List OpaqueMessage) : TtBuilder :=
  { time := some 1700000000, tlsSent := some (s.flatMap frameBytes), tlsRecv := some (r.flatMap frameBytes),
    appSent := some [71, 69, 84, 47, 10], appRecv := some [50, 48, 48, 33, 33, 1, 2, 3] }

/-- A session ticket. -/
def ticket : List (Byte × Bytes) := [(0x04, [0, 0, 0, 1, 0, 2, 5, 5])]

/-- The hypotheses of the theorems about streams are met, by two different splits into records, with and without a session
ticket. -/
example : ∀ s ∈ [sent, sent'], ∀ l ∈ [[], ticket], built ((builder s (recv l)).build env) = true := by decide +kernel

/-- The fields, the hashes and the application data of the transcript. -/
example : ∀ s ∈ [sent, sent'], ∀ l ∈ [[], ticket], (match (builder s (recv l)).build env with
    | .ok t => decide (t.version = .v12 ∧ t.serverCertChain = some [[0x77, 0x78]] ∧
        t.serverSignature = some ⟨.ecdsaP256Sha256, [9, 8]⟩ ∧
        t.certificateBinding.clientRandom.toList = List.replicate 32 0xaa ∧
        t.certificateBinding.serverRandom.toList = List.replicate 32 0xbb ∧
        t.certificateBinding.serverEphemeralKey = ⟨[4, 5, 6]⟩ ∧
        t.cfHash = some (messageBytes (flights l).clientFinished) ∧
        t.sfHashWith env (List.replicate 12 6) = some (some (messageBytes ((flights l).serverFinished (List.replicate 12 6)))) ∧
        t.sent.map (·.seq) = [0, 1, 2, 3] ∧
        t.toTranscript = .ok ⟨[71, 69, 84, 47, 10], [50, 48, 48, 33, 33]⟩)
    | _ => false) = true := by decide +kernel

/-- The session hash is the one of RFC 7627 without a ticket, and another one with it. -/
example : (match (builder sent (recv [])).build env with
    | .ok t => decide (t.sessionHash = some (messageBytes (flights []).session))
    | _ => false) = true ∧
  (match (builder sent (recv ticket)).build env with
    | .ok t => decide (t.sessionHash ≠ some (messageBytes (flights ticket).session))
    | _ => false) = true := by decide +kernel

/-- Too little application data is an error, too much is not. -/
example : ({ builder sent (recv []) with appSent := some [71, 69, 84, 47] } : TtBuilder).build env = .err .parse ∧
    ({ builder sent (recv []) with appSent := some [71, 69, 84, 47, 10, 99] } : TtBuilder).build env =
      (builder sent (recv [])).build env := by decide +kernel

/-- Without the application data there are no plaintexts, and the error names the record. -/
example : (match ({ builder sent (recv []) with appRecv := none } : TtBuilder).build env with
    | .ok t => decide (t.toTranscript = .err (.incomplete .received 1))
    | _ => false) = true := by decide +kernel

/-- Given records: a Finished message with bytes behind it is accepted, another message and a gap are not. -/
def given (first : Bytes) (seqs : List Nat) : TtBuilder :=
  let l := (⟨0, .handshake, some first, [], [], none⟩ : Record) ::
    seqs.map fun n => (⟨n, .applicationData, some [1], [], [2], none⟩ : Record)
  { time := some 0, version := some .v12, recordsSent := some l, recordsRecv := some l,
    certificateBinding := some ⟨toRandom [], toRandom [], ⟨[]⟩⟩ }

example : built ((given (hsBytes (0x14, List.replicate 12 1)) [1, 2, 9]).build env) = true ∧
    built ((given (hsBytes (0x14, List.replicate 12 1) ++ [5, 5]) [1, 2]).build env) = true ∧
    (given (hsBytes (0x10, List.replicate 12 1)) [1, 2]).build env = .err .validation ∧
    (given (hsBytes (0x14, List.replicate 12 1)) [1, 1]).build env = .err .validation ∧
    (given (hsBytes (0x14, List.replicate 12 1)) [0]).build env = .err .validation := by decide +kernel

example : ({ given [] [] with recordsSent := some [] } : TtBuilder).build env = .panic :=
  C42_empty_records_panic env _ rfl rfl 0 rfl rfl

/-- A hypothesis of `C67_signed_bytes`: the data of the connection above verifies. -/
example : (HandshakeData.mk [[0x77, 0x78]] .ecdsaP256Sha256 [9, 8] (toRandom (List.replicate 32 0xaa))
    (toRandom (List.replicate 32 0xbb)) ⟨[4, 5, 6]⟩).verify
      ⟨fun _ => true, fun _ _ _ => true, fun _ _ => true, fun _ _ m _ => m.length = 71⟩ 0 ⟨[4, 5, 6]⟩ [] = .ok () := by
  rfl

end TtExample

end Tlsn
