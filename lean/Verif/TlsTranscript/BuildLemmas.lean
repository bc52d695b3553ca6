import Verif.TlsTranscript.Fields

/-! # Inversion of `build` -/

namespace Tlsn

/-- Every message of the handshake is one that the parser accepts. -/
def MessagesParse (env : TtEnv) (f : Flights) : Prop :=
  ∀ m ∈ f.client ++ f.server, ∃ x, parseHandshake env.dnsOk m.1 .tls12 m.2 = some x

theorem orMissing_eq_ok {α : Type} (o : Option α) (a : α) : orMissing o = .ok a ↔ o = some a := by
  cases o <;> simp [orMissing]

theorem parse_list {dnsOk : Bytes → Bool} (l : List (Byte × Bytes)) (hl : ∀ m ∈ l, m.2.length < 2 ^ 24)
    (h : ∀ m ∈ l, ∃ x, parseHandshake dnsOk m.1 .tls12 m.2 = some x) :
    ∃ ms : List HandshakeMessage, l = ms.map (·.raw) ∧ ∀ m ∈ ms, m.Fits dnsOk .tls12 := by
  induction l with
  | nil => exact ⟨[], rfl, by simp⟩
  | cons a l ih =>
    obtain ⟨ms, h1, h2⟩ := ih (fun m hm => hl m (by simp [hm])) (fun m hm => h m (by simp [hm]))
    obtain ⟨x, hx⟩ := h a (by simp)
    obtain ⟨e1, e2, e3⟩ := (parseHandshake_iff _ _ _ _ _).1 hx
    refine ⟨x :: ms, ?_, ?_⟩
    · rw [List.map_cons, ← h1, HandshakeMessage.raw, e2, e3]
    · intro m hm
      rcases List.mem_cons.1 hm with rfl | hm
      · exact ⟨e1, by rw [e3]; exact hl a (by simp)⟩
      · exact h2 m hm

theorem parsed_iff (env : TtEnv) (sent recv : List OpaqueMessage) (f : Flights) :
    (∃ cms rms, Parsed env sent recv f cms rms) ↔ IsHandshake sent recv f ∧ MessagesParse env f := by
  constructor
  · rintro ⟨cms, rms, h⟩
    refine ⟨h.hs, fun m hm => ?_⟩
    have : ∃ x ∈ cms ++ rms, x.raw = m := by
      rw [h.client, h.server, ← List.map_append] at hm
      exact List.mem_map.1 hm
    obtain ⟨x, hx, rfl⟩ := this
    have hf : x.Fits env.dnsOk .tls12 := by
      rcases List.mem_append.1 hx with hx | hx
      · exact h.cfits x hx
      · exact h.sfits x hx
    exact ⟨x, (parseHandshake_iff _ _ _ _ _).2 ⟨hf.1, rfl, rfl⟩⟩
  · rintro ⟨h1, h2⟩
    obtain ⟨cms, hc, hcf⟩ := parse_list f.client (fun m hm => h1.valid.fits m (by simp [hm])) fun m hm => h2 m (by simp [hm])
    obtain ⟨rms, hr, hrf⟩ := parse_list f.server (fun m hm => h1.valid.fits m (by simp [hm])) fun m hm => h2 m (by simp [hm])
    exact ⟨cms, rms, h1, hc, hr, hcf, hrf⟩

theorem components_iff' (env : TtEnv) (b : TtBuilder) (sent recv : List OpaqueMessage) (b' : TtBuilder)
    (x : Bytes × Bytes × SfHashInput) :
    b.parseHandshakeComponents env sent recv = .ok (b', x) ↔
      ∃ f v d, IsHandshake sent recv f ∧ MessagesParse env f ∧ WireFields env f v d ∧ b' = b.fill v d ∧
        x = digestsOf env f := by
  rw [components_iff]
  constructor
  · rintro ⟨f, cms, rms, v, d, h1, h2, h3, h4⟩
    obtain ⟨a1, a2⟩ := (parsed_iff env sent recv f).1 ⟨cms, rms, h1⟩
    exact ⟨f, v, d, a1, a2, (h1.extract v d).1 h2, h3, h4⟩
  · rintro ⟨f, v, d, h1, h2, h3, h4, h5⟩
    obtain ⟨cms, rms, hp⟩ := (parsed_iff env sent recv f).2 ⟨h1, h2⟩
    exact ⟨f, cms, rms, v, d, hp, (hp.extract v d).2 h3, h4, h5⟩

/-- The records of a direction: those that were given, or those on the wire. -/
def DirectionOk (given : Option (List Record)) (wire : Option (List OpaqueMessage)) (app : Option Bytes)
    (records : List Record) : Prop :=
  match given with
  | some l => records = l ∧ RecordsOk l
  | none => ∃ w, wire = some w ∧ RecordsOfWire (protectedRecords w) app records

theorem direction_iff (env : TtEnv) (given : Option (List Record)) (raw : Option (List OpaqueMessage)) (app : Option Bytes)
    (rs : List Record) :
    (directionRecords env given raw app = .ok rs ∧ validateSeq rs = .ok ()) ↔ DirectionOk given raw app rs := by
  unfold directionRecords DirectionOk
  cases given with
  | none =>
    cases raw with
    | none => simp
    | some w =>
      simp only [Option.some.injEq, exists_eq_left']
      rw [parseRecords_iff]
      exact ⟨fun h => h.1, fun h => ⟨h, (validateSeq_iff _).2 (recordsOfWire_ok h).ordered⟩⟩
  | some l =>
    cases l with
    | nil =>
      simp only [reduceCtorEq, false_and, false_iff, not_and]
      rintro - ⟨⟨f, rest, h, -⟩, -⟩
      cases h
    | cons f l =>
      simp only [Outcome.bind_eq_ok, Outcome.ok.injEq]
      constructor
      · rintro ⟨⟨_, h1, rfl⟩, h2⟩
        exact ⟨rfl, (recordsOk_iff env f l).1 ⟨h1, h2⟩⟩
      · rintro ⟨rfl, h1⟩
        obtain ⟨h2, h3⟩ := (recordsOk_iff env f l).2 h1
        exact ⟨⟨(), h2, rfl⟩, h3⟩

theorem recordsOk_of_direction {given : Option (List Record)} {raw : Option (List OpaqueMessage)} {app : Option Bytes}
    {rs : List Record} (h : DirectionOk given raw app rs) : RecordsOk rs := by
  unfold DirectionOk at h
  cases given with
  | none => obtain ⟨w, -, h2⟩ := h; exact recordsOfWire_ok h2
  | some l => obtain ⟨rfl, h2⟩ := h; exact h2

theorem parseRawOpt_iff (o : Option Bytes) (l : Option (List OpaqueMessage)) :
    parseRawOpt o = .ok l ↔ match o with
      | none => l = none
      | some b => ∃ x, l = some x ∧ RecordStream b x := by
  cases o with
  | none => simp [parseRawOpt, eq_comm]
  | some b =>
    simp only [parseRawOpt, Outcome.bind_eq_ok, Outcome.ok.injEq, parseRaw_iff]
    constructor
    · rintro ⟨x, h1, rfl⟩; exact ⟨x, rfl, h1⟩
    · rintro ⟨x, rfl, h1⟩; exact ⟨x, h1, rfl⟩

/-- The part of `build` after the hashes. -/
theorem build_iff (env : TtEnv) (b : TtBuilder) (t : TlsTranscript) :
    b.build env = .ok t ↔ ∃ sent recv b' x, parseRawOpt b.tlsSent = .ok sent ∧ parseRawOpt b.tlsRecv = .ok recv ∧
      b.hashes env sent recv = .ok (b', x) ∧ b.time = some t.time ∧ b'.version = some t.version ∧
      b'.certificateBinding = some t.certificateBinding ∧ t.serverSignature = b'.serverSignature ∧
      t.serverCertChain = b'.serverCertChain ∧
      DirectionOk b'.recordsSent sent b'.appSent t.sent ∧ DirectionOk b'.recordsRecv recv b'.appRecv t.recv ∧
      t.cfHash = x.map (·.1) ∧ t.sessionHash = x.map (·.2.1) ∧ t.sfHash = x.map (·.2.2) := by
  unfold TtBuilder.build
  simp only [Outcome.bind_eq_ok, orMissing_eq_ok, Outcome.ok.injEq]
  constructor
  · rintro ⟨time, h1, sent, h2, recv, h3, ⟨b', x⟩, h4, rs, h5, _, h6, rr, h7, _, h8, v, h9, c, h10, rfl⟩
    exact ⟨sent, recv, b', x, h2, h3, h4, h1, h9, h10, rfl, rfl, (direction_iff env _ _ _ _).1 ⟨h5, h6⟩,
      (direction_iff env _ _ _ _).1 ⟨h7, h8⟩, rfl, rfl, rfl⟩
  · rintro ⟨sent, recv, b', x, h2, h3, h4, h1, h9, h10, e1, e2, h5, h7, e3, e4, e5⟩
    obtain ⟨h5, h6⟩ := (direction_iff env _ _ _ _).2 h5
    obtain ⟨h7, h8⟩ := (direction_iff env _ _ _ _).2 h7
    refine ⟨_, h1, _, h2, _, h3, _, h4, _, h5, (), h6, _, h7, (), h8, _, h9, _, h10, ?_⟩
    cases t
    simp only at e1 e2 e3 e4 e5
    subst e1 e2 e3 e4 e5
    rfl

theorem fill_records (b : TtBuilder) (v : TlsVersion) (d : HandshakeData) :
    (b.fill v d).recordsSent = b.recordsSent ∧ (b.fill v d).recordsRecv = b.recordsRecv ∧
    (b.fill v d).appSent = b.appSent ∧ (b.fill v d).appRecv = b.appRecv := ⟨rfl, rfl, rfl, rfl⟩

theorem or_eq_some {α : Type} (o : Option α) (a c : α) : o.or (some a) = some c ↔ c = o.getD a := by
  cases o <;> simp [eq_comm]

/-- Building from raw streams. -/
theorem build_raw_iff (env : TtEnv) (b : TtBuilder) (s r : Bytes) (hs : b.tlsSent = some s) (hr : b.tlsRecv = some r)
    (t : TlsTranscript) :
    b.build env = .ok t ↔ ∃ sent recv f v d, RecordStream s sent ∧ RecordStream r recv ∧ IsHandshake sent recv f ∧
      MessagesParse env f ∧ WireFields env f v d ∧ b.time = some t.time ∧ t.version = b.version.getD v ∧
      t.certificateBinding = b.certificateBinding.getD ⟨d.clientRandom, d.serverRandom, d.serverEphemeralKey⟩ ∧
      t.serverSignature = some (b.serverSignature.getD ⟨d.sigAlg, d.sig⟩) ∧
      t.serverCertChain = some (b.serverCertChain.getD d.certs) ∧
      DirectionOk b.recordsSent (some sent) b.appSent t.sent ∧ DirectionOk b.recordsRecv (some recv) b.appRecv t.recv ∧
      t.cfHash = some (digestsOf env f).1 ∧ t.sessionHash = some (digestsOf env f).2.1 ∧
      t.sfHash = some (digestsOf env f).2.2 := by
  have hor : ∀ {α : Type} (o : Option α) (a : α), o.or (some a) = some (o.getD a) := by intro α o a; cases o <;> rfl
  rw [build_iff]
  simp only [parseRawOpt_iff, hs, hr]
  constructor
  · rintro ⟨_, _, b', x, ⟨sent, rfl, h1⟩, ⟨recv, rfl, h2⟩, h3, h4, h5, h6, h7, h8, h9, h10, h11, h12, h13⟩
    simp only [TtBuilder.hashes, Outcome.bind_eq_ok, Outcome.ok.injEq, Prod.mk.injEq] at h3
    obtain ⟨⟨b'', y⟩, h3, rfl, rfl⟩ := h3
    obtain ⟨f, v, d, a1, a2, a3, rfl, rfl⟩ := (components_iff' _ _ _ _ _ _).1 h3
    exact ⟨sent, recv, f, v, d, h1, h2, a1, a2, a3, h4, (or_eq_some _ _ _).1 h5, (or_eq_some _ _ _).1 h6,
      by rw [h7]; exact hor _ _, by rw [h8]; exact hor _ _, h9, h10, h11, h12, h13⟩
  · rintro ⟨sent, recv, f, v, d, h1, h2, a1, a2, a3, h4, h5, h6, h7, h8, h9, h10, h11, h12, h13⟩
    refine ⟨_, _, b.fill v d, some (digestsOf env f), ⟨sent, rfl, h1⟩, ⟨recv, rfl, h2⟩, ?_, h4, (or_eq_some _ _ _).2 h5,
      (or_eq_some _ _ _).2 h6, by rw [h7]; exact (hor _ _).symm, by rw [h8]; exact (hor _ _).symm, h9, h10, h11, h12, h13⟩
    simp only [TtBuilder.hashes, Outcome.bind_eq_ok, Outcome.ok.injEq, Prod.mk.injEq]
    exact ⟨_, (components_iff' env b sent recv _ _).2 ⟨f, v, d, a1, a2, a3, rfl, rfl⟩, rfl, rfl⟩

/-! ### Uniqueness -/

theorem hsBytes_inj {m m' : Byte × Bytes} {r s : Bytes} (h : m.2.length < 2 ^ 24) (h' : m'.2.length < 2 ^ 24)
    (he : hsBytes m ++ r = hsBytes m' ++ s) : m = m' ∧ r = s := by
  obtain ⟨t, b⟩ := m
  obtain ⟨t', b'⟩ := m'
  simp only [hsBytes, List.cons_append, List.cons.injEq] at he
  obtain ⟨rfl, he⟩ := he
  obtain ⟨rfl, rfl⟩ := lengthPrefixed_inj (k := 3) h h' he
  exact ⟨rfl, rfl⟩

theorem messageBytes_inj {l l' : List (Byte × Bytes)} (h : ∀ m ∈ l, m.2.length < 2 ^ 24)
    (h' : ∀ m ∈ l', m.2.length < 2 ^ 24) (he : messageBytes l = messageBytes l') : l = l' := by
  induction l generalizing l' with
  | nil =>
    cases l' with
    | nil => rfl
    | cons m l' => simp [messageBytes, hsBytes] at he
  | cons m l ih =>
    cases l' with
    | nil => simp [messageBytes, hsBytes] at he
    | cons m' l' =>
      simp only [messageBytes, List.flatMap_cons] at he
      obtain ⟨rfl, h2⟩ := hsBytes_inj (h m (by simp)) (h' m' (by simp)) he
      rw [ih (fun x hx => h x (by simp [hx])) (fun x hx => h' x (by simp [hx])) h2]

theorem flights_unique {f f' : Flights} (h : f.Valid) (h' : f'.Valid)
    (h1 : messageBytes f.client = messageBytes f'.client) (h2 : messageBytes f.server = messageBytes f'.server) : f = f' := by
  have e1 := messageBytes_inj (fun m hm => h.fits m (by simp [hm])) (fun m hm => h'.fits m (by simp [hm])) h1
  have e2 := messageBytes_inj (fun m hm => h.fits m (by simp [hm])) (fun m hm => h'.fits m (by simp [hm])) h2
  unfold Flights.client at e1
  unfold Flights.server at e2
  obtain ⟨a1, a2⟩ := List.cons.inj e1
  obtain ⟨b1, b2, b3⟩ := first_unique a2 h.kx h'.kx
  obtain ⟨c1, -, c3⟩ := first_unique e2 h.done h'.done
  cases f; cases f'
  simp only [Prod.mk.injEq, true_and] at a1
  simp only at b1 b2 b3 c1 c3
  subst a1 b1 b2 b3 c1 c3
  rfl

theorem recordStream_unique {b : Bytes} {l l' : List OpaqueMessage} (h : RecordStream b l) (h' : RecordStream b l') :
    l = l' := by
  have e1 := (parseRaw_iff b l).2 h
  have e2 := (parseRaw_iff b l').2 h'
  rw [e1] at e2
  exact Outcome.ok.inj e2

theorem firstOf_unique {l : List (Byte × Bytes)} {t : Byte} {a b : Bytes} (h : FirstOf l t a) (h' : FirstOf l t b) :
    a = b := by
  obtain ⟨b1, a1, rfl, h1⟩ := h
  obtain ⟨b2, a2, h2, h3⟩ := h'
  exact (first_unique h2 h1 h3).2.1

theorem schemeIs_unique {c : Option EcCurve} {s : Nat} {a b : SignatureAlgorithm} (h : SchemeIs c s a)
    (h' : SchemeIs c s b) : a = b := by
  cases h <;> cases h' <;> first | rfl | (simp_all; done)

theorem sfHash_flights (env : TtEnv) (f : Flights) (vd : Bytes) (hv : vd.length = 12) :
    TlsTranscript.sfHashOf env (digestsOf env f).2.2 vd = some (env.sha256 (messageBytes (f.serverFinished vd))) := by
  have e1 : messageBytes f.client = hsBytes (0x01, f.clientHello) ++
      messageBytes (f.beforeKx ++ (0x10, f.clientKx) :: f.afterKx) := rfl
  have e2 : messageBytes f.server = messageBytes (f.serverFirst ++ [(0x0e, [])]) ++ messageBytes f.serverLast := by
    rw [← messageBytes_append]
    simp [Flights.server]
  have e3 : hsBytes (0x14, vd) = [0x14, 0x00, 0x00, 0x0c] ++ vd := by
    have : beBytes 3 12 = [0x00, 0x00, 0x0c] := by decide
    simp only [hsBytes, hv, this]
    rfl
  unfold TlsTranscript.sfHashOf digestsOf
  simp only [e1, e2, slice_prefix, slice_suffix]
  congr 2
  simp only [Flights.serverFinished, Flights.clientFinished, Flights.session, messageBytes_append]
  have e4 : messageBytes [(0x14, vd)] = hsBytes (0x14, vd) := by simp [messageBytes]
  have e5 : messageBytes [(0x01, f.clientHello)] = hsBytes (0x01, f.clientHello) := by simp [messageBytes]
  rw [e4, e3, e5, show ((0x10 : Byte), f.clientKx) :: f.afterKx = [(0x10, f.clientKx)] ++ f.afterKx from rfl]
  simp only [messageBytes_append, List.append_assoc]

end Tlsn
