import Verif.Tls.CodecLemmas
import Verif.Tls.HandshakeSpec

/-! # Lemmas about the codecs of handshake messages -/

namespace Tlsn

/-- Reading inverts encoding, and reads nothing but encodings. -/
structure Codec.Law {α : Type} (c : Codec α) (P : α → Prop) : Prop where
  inv : c.Inverts P
  canon : CanonRd c.read c.encode P

/-- The same for a read up to the end. -/
structure EndLaw {α : Type} (f : Rd α) (enc : α → Bytes) (P : α → Prop) : Prop where
  yields : ∀ x, P x → Yields f (enc x) x []
  canon : CanonRd f enc P

theorem Codec.Law.toEnd {α : Type} {c : Codec α} {P : α → Prop} (h : c.Law P) : EndLaw c.read c.encode P :=
  ⟨fun x hx => by simpa using h.inv x hx [], h.canon⟩

theorem whole_eq_some {α : Type} {f : Rd α} {b : Bytes} {x : α} :
    f.whole b = some x ↔ ∃ r, f (Reader.init b) = some (x, r) ∧ r.anyLeft = false := by
  unfold Rd.whole
  cases h : f (Reader.init b) with
  | none => simp
  | some p =>
    obtain ⟨y, r⟩ := p
    constructor
    · intro h
      cases ha : r.anyLeft with
      | true => simp [ha] at h
      | false =>
        simp only [ha, Bool.false_eq_true, if_false, Option.some.injEq] at h
        subst h
        exact ⟨r, rfl, ha⟩
    · rintro ⟨r', h1, h2⟩
      simp only [Option.some.injEq, Prod.mk.injEq] at h1
      obtain ⟨rfl, rfl⟩ := h1
      simp [h2]

/-- What is accepted, exactly. -/
theorem EndLaw.whole {α : Type} {f : Rd α} {enc : α → Bytes} {P : α → Prop} (h : EndLaw f enc P) (b : Bytes) (x : α) :
    f.whole b = some x ↔ P x ∧ enc x = b := by
  rw [whole_eq_some]
  constructor
  · rintro ⟨r, h1, h2⟩
    obtain ⟨hp, hb, rest, h3, h4⟩ := h.canon _ _ _ (Nat.zero_le _) h1
    rw [h4.anyLeft] at h2
    have : rest = [] := by simpa using h2
    subst this
    refine ⟨hp, ?_⟩
    rw [List.append_nil] at h3
    rw [← h3.2]
    rfl
  · rintro ⟨hp, rfl⟩
    obtain ⟨r, h1, h2, -⟩ := h.yields x hp _ (Reader.init_at _)
    exact ⟨r, h1, by rw [h2.anyLeft]; rfl⟩

theorem Codec.Law.whole {α : Type} {c : Codec α} {P : α → Prop} (h : c.Law P) (b : Bytes) (x : α) :
    c.read.whole b = some x ↔ P x ∧ c.encode x = b := h.toEnd.whole b x

theorem Codec.Law.mono {α : Type} {c : Codec α} {P Q : α → Prop} (h : c.Law P) (hpq : ∀ x, Q x ↔ P x) : c.Law Q := by
  have : Q = P := funext fun x => propext (hpq x)
  rw [this]; exact h

theorem law_u8 : codecU8.Law fun _ => True := ⟨u8_inverts, u8_canon⟩
theorem law_u16 : codecU16.Law fun _ => True := ⟨u16_inverts, u16_canon⟩
theorem law_u32 : codecU32.Law fun _ => True := ⟨u32_inverts, u32_canon⟩
theorem law_payloadU8 : codecPayloadU8.Law fun b => b.length < 2 ^ 8 := ⟨payloadU8_inverts, payloadU8_canon⟩
theorem law_payloadU16 : codecPayloadU16.Law fun b => b.length < 2 ^ 16 := ⟨payloadU16_inverts, payloadU16_canon⟩
theorem law_payloadU24 : codecPayloadU24.Law fun b => b.length < 2 ^ 24 := ⟨payloadU24_inverts, payloadU24_canon⟩
theorem law_version : codecVersion.Law ProtocolVersion.Canonical := ⟨version_inverts, version_canon⟩

theorem law_random : codecRandom.Law fun b => b.length = 32 :=
  ⟨fun x hx rest => yields_take x rest hx, canon_take 32⟩

theorem law_sessionId : codecSessionId.Law fun b => b.length ≤ 32 := by
  constructor
  · intro v hv rest
    have h1 : (UInt8.ofNat v.length).toNat = v.length := by
      rw [UInt8.toNat_ofNat']; exact Nat.mod_eq_of_lt (by omega)
    simp only [codecSessionId, List.append_assoc]
    refine Yields.bind (u8_inverts _ trivial _) ?_
    rw [if_neg (by omega)]
    exact yields_take v rest h1.symm
  · refine CanonRd.bind (eg := id) u8_canon fun n _ => ?_
    by_cases hn : n.toNat > 32
    · rw [if_pos hn]
      exact canon_lift _ _ _ fun y hy => by cases hy
    · rw [if_neg hn]
      intro r r' y ho h
      obtain ⟨h1, h2⟩ := canon_take n.toNat r r' y ho h
      refine ⟨⟨by omega, ?_⟩, h2⟩
      simp only [codecSessionId, h1, UInt8.ofNat_toNat, id]

theorem Codec.Law.seq {α β : Type} {a : Codec α} {b : Codec β} {P : α → Prop} {Q : β → Prop} (ha : a.Law P)
    (hb : b.Law Q) : (a.seq b).Law fun x => P x.1 ∧ Q x.2 := by
  constructor
  · intro x hx rest
    simp only [Codec.seq, List.append_assoc]
    exact Yields.bind (ha.inv x.1 hx.1 _) (Yields.bind (hb.inv x.2 hx.2 _) (Yields.pure _ _))
  · refine CanonRd.bind (eg := fun y => b.encode y.2) ha.canon fun x hx => ?_
    refine CanonRd.bind (eg := fun _ => []) hb.canon fun y hy => canon_pure _ _ _ rfl ⟨⟨⟨hx, hy⟩, ?_⟩, ?_⟩ <;>
      simp [Codec.seq]

theorem Codec.Law.fields {α β : Type} {c : Codec α} {P : α → Prop} (hc : c.Law P) {build : α → β} {parts : β → α}
    (h1 : ∀ y, build (parts y) = y) (h2 : ∀ x, P x → parts (build x) = x) :
    (c.fields build parts).Law fun y => P (parts y) := by
  constructor
  · intro y hy rest
    refine Yields.bind (hc.inv (parts y) hy _) ?_
    rw [h1]
    exact Yields.pure _ _
  · refine CanonRd.bind (eg := fun _ => []) hc.canon fun x hx => canon_pure _ _ _ rfl ⟨?_, ?_⟩
    · rw [h2 x hx]; exact hx
    · simp [Codec.fields, h2 x hx]

theorem Codec.Law.check {α : Type} {c : Codec α} {P : α → Prop} (hc : c.Law P) (ok : α → Bool) :
    (c.check ok).Law fun x => P x ∧ ok x = true := by
  constructor
  · intro y hy rest
    refine Yields.bind (hc.inv y hy.1 _) ?_
    rw [if_pos hy.2]
    exact Yields.lift _ _
  · refine CanonRd.bind (eg := fun _ => []) hc.canon fun x hx => canon_lift _ _ _ fun y hy => ?_
    by_cases h : ok x = true
    · rw [if_pos h] at hy
      obtain rfl := Option.some.inj hy
      exact ⟨rfl, ⟨hx, h⟩, by simp [Codec.check]⟩
    · rw [if_neg h] at hy; cases hy

theorem Codec.Law.vecU8 {α : Type} {c : Codec α} {P : α → Prop} (hc : c.Law P) (hpos : ∀ x, P x → c.encode x ≠ []) :
    c.vecU8.Law (VecFits 8 c P) := ⟨vecU8_inverts c P hc.inv hpos, vecU8_canon c P hc.canon⟩

theorem Codec.Law.vecU16 {α : Type} {c : Codec α} {P : α → Prop} (hc : c.Law P) (hpos : ∀ x, P x → c.encode x ≠ []) :
    c.vecU16.Law (VecFits 16 c P) := ⟨vecU16_inverts c P hc.inv hpos, vecU16_canon c P hc.canon⟩

theorem Codec.Law.vecU24 {α : Type} {c : Codec α} {P : α → Prop} (hc : c.Law P) (hpos : ∀ x, P x → c.encode x ≠ []) :
    (c.vecU24 0x10000).Law (Vec24Fits c P) :=
  ⟨vecU24_inverts c P hc.inv hpos _, vecU24_canon c P hc.canon _⟩

theorem canon_rest : CanonRd Rd.rest id fun _ => True := by
  intro r r' x ho h
  simp only [Rd.rest, Option.some.injEq, Prod.mk.injEq] at h
  obtain ⟨rfl, rfl⟩ := h
  exact ⟨trivial, rfl, [], ⟨ho, by simp⟩, ⟨by simp, by simp⟩⟩

theorem yields_rest (b : Bytes) : Yields Rd.rest b b [] := by
  intro r hr
  refine ⟨{ r with offs := r.buf.length }, ?_, ⟨by simp, by simp⟩, rfl⟩
  unfold Rd.rest
  rw [hr.2]

theorem u16_encode_ne (x : UInt16) : codecU16.encode x ≠ [] := by
  intro h
  have := congrArg List.length h
  simp [codecU16] at this

theorem u24_encode_ne (x : U24) : codecU24.encode x ≠ [] := by
  intro h
  have := congrArg List.length h
  simp [codecU24] at this

theorem u32_encode_ne (x : UInt32) : codecU32.encode x ≠ [] := by
  intro h
  have := congrArg List.length h
  simp [codecU32] at this

theorem u8_encode_ne (x : UInt8) : codecU8.encode x ≠ [] := by simp [codecU8]

theorem version_encode_ne (x : ProtocolVersion) : codecVersion.encode x ≠ [] := u16_encode_ne _

theorem payloadU8_encode_ne (x : Bytes) : codecPayloadU8.encode x ≠ [] := by simp [codecPayloadU8, codecU8]

theorem payloadU16_encode_ne (x : Bytes) : codecPayloadU16.encode x ≠ [] := by simp [codecPayloadU16, u16_encode_ne]

theorem payloadU24_encode_ne (x : Bytes) : codecPayloadU24.encode x ≠ [] := by simp [codecPayloadU24, u24_encode_ne]

/-! ### Structures -/

theorem law_keyShareEntry : codecKeyShareEntry.Law KeyShareEntry.Fits :=
  ((law_u16.seq law_payloadU16).fields (fun _ => rfl) (fun _ _ => rfl)).mono fun x => by
    simp [KeyShareEntry.Fits]

theorem law_pskIdentity : codecPskIdentity.Law PresharedKeyIdentity.Fits :=
  ((law_payloadU16.seq law_u32).fields (fun _ => rfl) (fun _ _ => rfl)).mono fun x => by
    simp [PresharedKeyIdentity.Fits]

theorem law_pskOffer : codecPskOffer.Law PresharedKeyOffer.Fits :=
  (((law_pskIdentity.vecU16 fun x _ => by
      simp [codecPskIdentity, Codec.fields, Codec.seq, payloadU16_encode_ne]).seq
    (law_payloadU8.vecU16 fun x _ => payloadU8_encode_ne x)).fields (fun _ => rfl) (fun _ _ => rfl)).mono fun _ => Iff.rfl

theorem law_payloads16 : codecPayloadU16.vecU16.Law (VecFits 16 codecPayloadU16 fun b => b.length < 2 ^ 16) :=
  law_payloadU16.vecU16 fun x _ => payloadU16_encode_ne x

theorem law_payloads8 : codecPayloadU8.vecU16.Law (VecFits 16 codecPayloadU8 fun b => b.length < 2 ^ 8) :=
  law_payloadU8.vecU16 fun x _ => payloadU8_encode_ne x

theorem law_u16s : codecU16.vecU16.Law (VecFits 16 codecU16 fun _ => True) := law_u16.vecU16 fun x _ => u16_encode_ne x

theorem law_u8s : codecU8.vecU8.Law (VecFits 8 codecU8 fun _ => True) := law_u8.vecU8 fun x _ => u8_encode_ne x

theorem law_versions : codecVersion.vecU8.Law (VecFits 8 codecVersion ProtocolVersion.Canonical) :=
  law_version.vecU8 fun x _ => version_encode_ne x

theorem law_keyShares : codecKeyShareEntry.vecU16.Law (VecFits 16 codecKeyShareEntry KeyShareEntry.Fits) :=
  law_keyShareEntry.vecU16 fun x _ => by simp [codecKeyShareEntry, Codec.fields, Codec.seq, u16_encode_ne]

theorem law_certificates : codecCertificates.Law (Vec24Fits codecPayloadU24 fun c => c.length < 2 ^ 24) :=
  law_payloadU24.vecU24 fun x _ => payloadU24_encode_ne x

theorem law_certificateStatus : codecCertificateStatus.Law fun p => p.length < 2 ^ 24 :=
  (((law_u8.check (· == 1)).seq law_payloadU24).fields (fun _ => rfl) (fun x hx => by
    have : x.1 = 1 := by simpa using hx.1
    rw [← this])).mono fun x => by simp

theorem law_digitallySigned : codecDigitallySigned.Law DigitallySigned.Fits :=
  ((law_u16.seq law_payloadU16).fields (fun _ => rfl) (fun _ _ => rfl)).mono fun x => by simp [DigitallySigned.Fits]

theorem law_ecdhe : codecEcdheServerKeyExchange.Law EcdheServerKeyExchange.Fits :=
  (((law_u8.check (· == 3)).seq (law_u16.seq (law_payloadU8.seq law_digitallySigned))).fields (fun _ => rfl)
    (fun x hx => by
      have : x.1 = 3 := by simpa using hx.1
      rw [← this])).mono fun x => by simp [EcdheServerKeyExchange.Fits]

theorem law_certificateRequest : codecCertificateRequest.Law CertificateRequestPayload.Fits :=
  (((law_u8s.seq (law_u16s.seq law_payloads16)).fields (fun _ => rfl) (fun _ _ => rfl)).check _).mono fun x => by
    constructor
    · intro h; exact ⟨⟨h.certTypes, h.sigSchemes, h.caNames⟩, by simpa using h.some⟩
    · rintro ⟨⟨h1, h2, h3⟩, h4⟩; exact ⟨h1, h2, h3, by simpa using h4⟩

theorem law_newSessionTicket : codecNewSessionTicket.Law NewSessionTicket.Fits :=
  ((law_u32.seq law_payloadU16).fields (fun _ => rfl) (fun _ _ => rfl)).mono fun x => by simp [NewSessionTicket.Fits]

/-! ### Extensions -/

theorem law_extension {ε : Type} {typeOf : ε → UInt16} {bodyOf : ε → Bytes} {parse : UInt16 → Bytes → Option ε}
    {P : ε → Prop} (h : ∀ t b e, parse t b = some e ↔ P e ∧ typeOf e = t ∧ bodyOf e = b) :
    (codecExtension typeOf bodyOf parse).Law fun e => P e ∧ (bodyOf e).length < 2 ^ 16 := by
  constructor
  · intro e he rest
    simp only [codecExtension, List.append_assoc]
    refine Yields.bind (u16_inverts _ trivial _) (Yields.bind (u16_inverts _ trivial _)
      (Yields.bind (yields_body (bodyOf e) rest ?_) ?_))
    · rw [UInt16.toNat_ofNat']; exact (Nat.mod_eq_of_lt he.2).symm
    · rw [(h (typeOf e) (bodyOf e) e).2 ⟨he.1, rfl, rfl⟩]
      exact Yields.lift _ _
  · refine CanonRd.bind (eg := fun e => codecU16.encode (UInt16.ofNat (bodyOf e).length) ++ bodyOf e) u16_canon
      fun t _ => ?_
    refine CanonRd.bind (eg := bodyOf) u16_canon fun n _ => ?_
    refine CanonRd.bind (eg := fun _ => []) (canon_body n.toNat) fun b hb => canon_lift _ _ _ fun e he => ?_
    obtain ⟨h1, h2, h3⟩ := (h t b e).1 he
    refine ⟨rfl, ⟨⟨⟨h1, ?_⟩, ?_⟩, ?_⟩, ?_⟩
    · rw [h3, hb]; exact n.toNat_lt
    · simp [codecExtension, h2]
    · rw [h3, hb, UInt16.ofNat_toNat]
    · simp [h3]

theorem extension_encode_ne {ε : Type} (typeOf : ε → UInt16) (bodyOf : ε → Bytes) (parse : UInt16 → Bytes → Option ε)
    (e : ε) : (codecExtension typeOf bodyOf parse).encode e ≠ [] := by
  simp [codecExtension, u16_encode_ne]

theorem map_eq_some_iff' {α β : Type} {o : Option α} {f : α → β} {y : β} :
    o.map f = some y ↔ ∃ x, o = some x ∧ f x = y := by
  cases o <;> simp

/-- A parse of a list of server names. -/
theorem canon_serverName (dnsOk : Bytes → Bool) :
    CanonRd (codecServerName dnsOk).read (codecServerName dnsOk).encode (SniName.Fits dnsOk) := by
  refine CanonRd.bind (eg := fun n => n.payload.encode) u8_canon fun t _ => ?_
  refine CanonRd.bind (ef := ServerNamePayload.encode) (eg := fun _ => [])
    (P := fun p => SniName.Fits dnsOk ⟨t, p⟩) ?_ fun p hp =>
      canon_pure _ _ _ rfl ⟨⟨hp, rfl⟩, by simp⟩
  unfold readServerNamePayload
  by_cases ht : t = 0
  · rw [if_pos ht]
    refine CanonRd.bind (eg := fun _ => []) payloadU16_canon fun raw hr => canon_lift _ _ _ fun p hp => ?_
    by_cases hd : dnsOk raw = true
    · rw [if_pos hd] at hp
      obtain rfl := Option.some.inj hp
      exact ⟨rfl, ⟨ht, hr, hd⟩, by simp [ServerNamePayload.encode]⟩
    · rw [if_neg hd] at hp; cases hp
  · rw [if_neg ht]
    exact CanonRd.bind (eg := fun _ => []) canon_rest fun b _ =>
      canon_pure _ _ _ rfl ⟨ht, by simp [ServerNamePayload.encode]⟩

theorem yields_serverName_host (dnsOk : Bytes → Bool) (n : SniName) (h : n.Fits dnsOk) (ht : n.typ = 0)
    (rest : Bytes) : Yields (codecServerName dnsOk).read ((codecServerName dnsOk).encode n ++ rest) n rest := by
  obtain ⟨t, p⟩ := n
  simp only at ht
  subst ht
  cases p with
  | unknown p => exact absurd rfl h
  | hostName raw =>
    obtain ⟨-, h1, h2⟩ := h
    simp only [codecServerName, List.append_assoc, ServerNamePayload.encode]
    refine Yields.bind (u8_inverts _ trivial _) ?_
    unfold readServerNamePayload
    rw [if_pos rfl]
    refine Yields.bind (x := ServerNamePayload.hostName raw) (Yields.bind (payloadU16_inverts raw h1 rest) ?_)
      (Yields.pure _ _)
    rw [if_pos h2]
    exact Yields.lift _ _

theorem yields_serverName_end (dnsOk : Bytes → Bool) (n : SniName) (h : n.Fits dnsOk) :
    Yields (codecServerName dnsOk).read ((codecServerName dnsOk).encode n) n [] := by
  obtain ⟨t, p⟩ := n
  cases p with
  | hostName raw => simpa using yields_serverName_host dnsOk _ h h.1 []
  | unknown p =>
    have ht : t ≠ 0 := h
    simp only [codecServerName, ServerNamePayload.encode]
    refine Yields.bind (u8_inverts _ trivial _) ?_
    unfold readServerNamePayload
    rw [if_neg ht]
    exact Yields.bind (Yields.bind (yields_rest p) (Yields.pure _ _)) (Yields.pure _ _)

theorem serverName_encode_ne (dnsOk : Bytes → Bool) (n : SniName) : (codecServerName dnsOk).encode n ≠ [] := by
  simp [codecServerName, u8_encode_ne]

theorem readItems_names (dnsOk : Bytes → Bool) (l : List SniName) (h : ∀ n ∈ l, n.Fits dnsOk)
    (hd : ∀ n ∈ l.dropLast, n.typ = 0) (k : Nat) (r : Reader) (hr : r.At (encodeAll (codecServerName dnsOk) l))
    (hk : (encodeAll (codecServerName dnsOk) l).length ≤ k) : readItems (codecServerName dnsOk) k r = some l := by
  induction l generalizing k r with
  | nil =>
    have := hr.anyLeft
    simp [encodeAll] at this
    cases k <;> simp [readItems, this]
  | cons x l ih =>
    have hx := serverName_encode_ne dnsOk x
    have he : encodeAll (codecServerName dnsOk) (x :: l) =
      (codecServerName dnsOk).encode x ++ encodeAll (codecServerName dnsOk) l := by simp [encodeAll]
    rw [he] at hr hk
    have hl : 0 < ((codecServerName dnsOk).encode x).length := List.length_pos_iff.2 hx
    rw [List.length_append] at hk
    obtain ⟨m, rfl⟩ : ∃ m, k = m + 1 := ⟨k - 1, by omega⟩
    have ha : r.anyLeft = true := by
      rw [hr.anyLeft]
      cases h : (codecServerName dnsOk).encode x with
      | nil => exact absurd h hx
      | cons a b => simp
    have step : ∃ r', (codecServerName dnsOk).read r = some (x, r') ∧ r'.At (encodeAll (codecServerName dnsOk) l) := by
      cases l with
      | nil =>
        have he' : encodeAll (codecServerName dnsOk) [] = [] := rfl
        rw [he', List.append_nil] at hr
        obtain ⟨r', h1, h2, -⟩ := yields_serverName_end dnsOk x (h x (by simp)) r hr
        exact ⟨r', h1, h2⟩
      | cons y l =>
        obtain ⟨r', h1, h2, -⟩ := yields_serverName_host dnsOk x (h x (by simp)) (hd x (by simp)) _ r hr
        exact ⟨r', h1, h2⟩
    obtain ⟨r', h1, h2⟩ := step
    have hd' : ∀ n ∈ l.dropLast, n.typ = 0 := by
      intro n hn
      cases l with
      | nil => cases hn
      | cons y l => exact hd n (by rw [List.dropLast_cons_cons]; exact List.mem_cons_of_mem _ hn)
    simp only [readItems, ha, if_true, h1, ih (fun y hy => h y (by simp [hy])) hd' m r' h2 (by omega), Option.map_some]

theorem readItems_names_last (dnsOk : Bytes → Bool) (k : Nat) (r : Reader) (ho : r.offs ≤ r.buf.length)
    (l : List SniName) (h : readItems (codecServerName dnsOk) k r = some l) : ∀ n ∈ l.dropLast, n.typ = 0 := by
  induction k generalizing r l with
  | zero =>
    simp only [readItems] at h
    split at h
    · cases h
    · obtain rfl := Option.some.inj h; simp
  | succ k ih =>
    simp only [readItems] at h
    split at h
    · cases hr : (codecServerName dnsOk).read r with
      | none => rw [hr] at h; cases h
      | some p =>
        obtain ⟨x, r1⟩ := p
        rw [hr] at h
        simp only [Option.map_eq_some_iff] at h
        obtain ⟨ys, hy, rfl⟩ := h
        obtain ⟨hp, hb, rest, h1, h2⟩ := canon_serverName dnsOk r r1 x ho hr
        cases ys with
        | nil => simp
        | cons y ys =>
          intro n hn
          rw [List.dropLast_cons_cons] at hn
          rcases List.mem_cons.1 hn with rfl | hn
          · refine Classical.byContradiction fun ht => ?_
            -- an unknown name takes everything
            have hend : r1.anyLeft = false := by
              simp only [codecServerName] at hr
              obtain ⟨t, r2, h3, h4⟩ := bind_eq_some.1 hr
              obtain ⟨p, r3, h5, h6⟩ := bind_eq_some.1 h4
              obtain ⟨rfl, rfl⟩ := pure_eq_some.1 h6
              rw [readServerNamePayload, if_neg ht] at h5
              obtain ⟨b, r4, h7, h8⟩ := bind_eq_some.1 h5
              obtain ⟨rfl, rfl⟩ := pure_eq_some.1 h8
              simp only [Rd.rest, Option.some.injEq, Prod.mk.injEq] at h7
              obtain ⟨rfl, rfl⟩ := h7
              simp [Reader.anyLeft]
            cases k with
            | zero => simp [readItems, hend] at hy
            | succ k => simp [readItems, hend] at hy
          · exact ih r1 h2.1 _ hy n hn
    · obtain rfl := Option.some.inj h; simp

theorem law_serverNames (dnsOk : Bytes → Bool) : (codecServerName dnsOk).vecU16.Law (ServerNamesFit dnsOk) := by
  constructor
  · intro l hl rest
    simp only [Codec.vecU16, encodeVecU16, List.append_assoc]
    refine Yields.bind (u16_inverts _ trivial _) ?_
    refine Yields.bind (yields_sub (encodeAll (codecServerName dnsOk) l) rest ?_) ?_
    · rw [UInt16.toNat_ofNat']; exact (Nat.mod_eq_of_lt hl.1.2).symm
    · rw [readItems_names dnsOk l hl.1.1 hl.2 _ _ (Reader.init_at _) (Nat.le_of_eq (Reader.init_at _).left.symm)]
      exact Yields.lift _ _
  · intro r r' l ho h
    obtain ⟨h1, h2⟩ := vecU16_canon (codecServerName dnsOk) _ (canon_serverName dnsOk) r r' l ho h
    refine ⟨⟨h1, ?_⟩, h2⟩
    obtain ⟨n, r1, -, h4⟩ := bind_eq_some.1 h
    obtain ⟨s, r2, h5, h6⟩ := bind_eq_some.1 h4
    obtain ⟨h7, -⟩ := lift_eq_some.1 h6
    obtain ⟨b, r3, -, h9⟩ := bind_eq_some.1 h5
    obtain ⟨rfl, -⟩ := pure_eq_some.1 h9
    exact readItems_names_last dnsOk _ _ (Nat.zero_le _) l h7

theorem endLaw_statusRequest :
    EndLaw readStatusRequest CertificateStatusRequest.encode CertificateStatusRequest.Fits := by
  constructor
  · intro x hx
    cases x with
    | ocsp ids ext =>
      simp only [CertificateStatusRequest.encode]
      refine Yields.bind (u8_inverts _ trivial _) ?_
      rw [if_pos rfl]
      refine Yields.bind (law_payloads16.inv ids hx.1 _) ?_
      have := law_payloadU16.inv ext hx.2 []
      rw [List.append_nil] at this
      exact Yields.bind this (Yields.pure _ _)
    | unknown typ p =>
      have ht : typ ≠ 1 := hx
      simp only [CertificateStatusRequest.encode]
      refine Yields.bind (u8_inverts _ trivial _) ?_
      rw [if_neg ht]
      exact Yields.bind (yields_rest p) (Yields.pure _ _)
  · refine CanonRd.bind (eg := fun x => match x with
        | .ocsp ids ext => codecPayloadU16.vecU16.encode ids ++ codecPayloadU16.encode ext
        | .unknown _ p => p) u8_canon fun t _ => ?_
    by_cases ht : t = 1
    · rw [if_pos ht]
      subst ht
      refine CanonRd.bind (eg := fun x => match x with
        | .ocsp ids ext => codecPayloadU16.encode ext
        | .unknown _ p => p) law_payloads16.canon fun ids hids => ?_
      refine CanonRd.bind (eg := fun _ => []) law_payloadU16.canon fun ext hext => canon_pure _ _ _ rfl ?_
      exact ⟨⟨⟨⟨hids, hext⟩, rfl⟩, rfl⟩, by simp⟩
    · rw [if_neg ht]
      refine CanonRd.bind (eg := fun _ => []) canon_rest fun b _ => canon_pure _ _ _ rfl ?_
      exact ⟨⟨ht, rfl⟩, by simp⟩

end Tlsn
