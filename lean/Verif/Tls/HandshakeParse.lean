import Verif.Tls.HandshakeLaws

/-! # Parsing of handshake messages -/

namespace Tlsn

/-! ### Messages -/

theorem parseHandshake_iff (dnsOk : Bytes → Bool) (t : UInt8) (vers : ProtocolVersion) (b : Bytes) (m : HandshakeMessage) :
    parseHandshake dnsOk t vers b = some m ↔ m.BodyFits dnsOk vers ∧ m.wireType = t ∧ m.payload.encode = b := by
  constructor
  · intro h
    unfold parseHandshake at h
    by_cases ht : t = 0x00 ∧ b = []
    · rw [if_pos ht] at h; obtain rfl := Option.some.inj h
      obtain ⟨rfl, rfl⟩ := ht; exact ⟨rfl, rfl, rfl⟩
    rw [if_neg ht] at h
    have h1 := ht; clear ht
    by_cases ht : t = 0x01
    · rw [if_pos ht] at h; obtain ⟨x, hx, rfl⟩ := map_eq_some_iff'.1 h
      subst ht
      exact ⟨⟨rfl, (((endLaw_clientHello dnsOk).whole _ _).1 hx).1⟩, rfl, (((endLaw_clientHello dnsOk).whole _ _).1 hx).2⟩
    rw [if_neg ht] at h
    have h2 := ht; clear ht
    by_cases ht : t = 0x02
    · rw [if_pos ht] at h; subst ht
      rcases (serverHello_whole _ _).1 h with ⟨x, rfl, hf, he⟩ | ⟨x, rfl, hf, he⟩
      · exact ⟨⟨rfl, hf⟩, rfl, he⟩
      · exact ⟨⟨rfl, hf⟩, rfl, he⟩
    rw [if_neg ht] at h
    have h3 := ht; clear ht
    by_cases ht : t = 0x0b ∧ vers = .tls13
    · rw [if_pos ht] at h; obtain ⟨x, hx, rfl⟩ := map_eq_some_iff'.1 h
      obtain ⟨rfl, rfl⟩ := ht
      exact ⟨⟨rfl, rfl, ((law_certificatePayload13.whole _ _).1 hx).1⟩, rfl, ((law_certificatePayload13.whole _ _).1 hx).2⟩
    rw [if_neg ht] at h
    have h4 := ht; clear ht
    by_cases ht : t = 0x0b
    · rw [if_pos ht] at h; obtain ⟨x, hx, rfl⟩ := map_eq_some_iff'.1 h
      subst ht
      have hv : vers ≠ .tls13 := fun hv => h4 ⟨rfl, hv⟩
      exact ⟨⟨rfl, hv, ((law_certificates.whole _ _).1 hx).1⟩, rfl, ((law_certificates.whole _ _).1 hx).2⟩
    rw [if_neg ht] at h
    have h5 := ht; clear ht
    by_cases ht : t = 0x0c
    · rw [if_pos ht] at h; obtain rfl := Option.some.inj h; subst ht; exact ⟨rfl, rfl, rfl⟩
    rw [if_neg ht] at h
    have h6 := ht; clear ht
    by_cases ht : t = 0x0e
    · rw [if_pos ht] at h; obtain ⟨rfl, rfl⟩ := emptyBody_eq_some.1 h; subst ht; exact ⟨rfl, rfl, rfl⟩
    rw [if_neg ht] at h
    have h7 := ht; clear ht
    by_cases ht : t = 0x10
    · rw [if_pos ht] at h; obtain rfl := Option.some.inj h; subst ht; exact ⟨rfl, rfl, rfl⟩
    rw [if_neg ht] at h
    have h8 := ht; clear ht
    by_cases ht : t = 0x0d ∧ vers = .tls13
    · rw [if_pos ht] at h; obtain ⟨x, hx, rfl⟩ := map_eq_some_iff'.1 h
      obtain ⟨rfl, rfl⟩ := ht
      exact ⟨⟨rfl, rfl, ((law_certificateRequest13.whole _ _).1 hx).1⟩, rfl, ((law_certificateRequest13.whole _ _).1 hx).2⟩
    rw [if_neg ht] at h
    have h9 := ht; clear ht
    by_cases ht : t = 0x0d
    · rw [if_pos ht] at h; obtain ⟨x, hx, rfl⟩ := map_eq_some_iff'.1 h
      subst ht
      have hv : vers ≠ .tls13 := fun hv => h9 ⟨rfl, hv⟩
      exact ⟨⟨rfl, hv, ((law_certificateRequest.whole _ _).1 hx).1⟩, rfl, ((law_certificateRequest.whole _ _).1 hx).2⟩
    rw [if_neg ht] at h
    have h10 := ht; clear ht
    by_cases ht : t = 0x0f
    · rw [if_pos ht] at h; obtain ⟨x, hx, rfl⟩ := map_eq_some_iff'.1 h
      subst ht
      exact ⟨⟨rfl, ((law_digitallySigned.whole _ _).1 hx).1⟩, rfl, ((law_digitallySigned.whole _ _).1 hx).2⟩
    rw [if_neg ht] at h
    have h11 := ht; clear ht
    by_cases ht : t = 0x04 ∧ vers = .tls13
    · rw [if_pos ht] at h; obtain ⟨x, hx, rfl⟩ := map_eq_some_iff'.1 h
      obtain ⟨rfl, rfl⟩ := ht
      exact ⟨⟨rfl, rfl, ((law_newSessionTicket13.whole _ _).1 hx).1⟩, rfl, ((law_newSessionTicket13.whole _ _).1 hx).2⟩
    rw [if_neg ht] at h
    have h12 := ht; clear ht
    by_cases ht : t = 0x04
    · rw [if_pos ht] at h; obtain ⟨x, hx, rfl⟩ := map_eq_some_iff'.1 h
      subst ht
      have hv : vers ≠ .tls13 := fun hv => h12 ⟨rfl, hv⟩
      exact ⟨⟨rfl, hv, ((law_newSessionTicket.whole _ _).1 hx).1⟩, rfl, ((law_newSessionTicket.whole _ _).1 hx).2⟩
    rw [if_neg ht] at h
    have h13 := ht; clear ht
    by_cases ht : t = 0x08
    · rw [if_pos ht] at h; obtain ⟨x, hx, rfl⟩ := map_eq_some_iff'.1 h
      subst ht
      exact ⟨⟨rfl, ((law_serverExtensions.whole _ _).1 hx).1⟩, rfl, ((law_serverExtensions.whole _ _).1 hx).2⟩
    rw [if_neg ht] at h
    have h14 := ht; clear ht
    by_cases ht : t = 0x18
    · rw [if_pos ht] at h; obtain ⟨x, hx, rfl⟩ := map_eq_some_iff'.1 h
      subst ht
      exact ⟨rfl, rfl, ((law_u8.whole _ _).1 hx).2⟩
    rw [if_neg ht] at h
    have h15 := ht; clear ht
    by_cases ht : t = 0x05
    · rw [if_pos ht] at h; obtain ⟨rfl, rfl⟩ := emptyBody_eq_some.1 h; subst ht; exact ⟨rfl, rfl, rfl⟩
    rw [if_neg ht] at h
    have h16 := ht; clear ht
    by_cases ht : t = 0x14
    · rw [if_pos ht] at h; obtain rfl := Option.some.inj h; subst ht; exact ⟨rfl, rfl, rfl⟩
    rw [if_neg ht] at h
    have h17 := ht; clear ht
    by_cases ht : t = 0x16
    · rw [if_pos ht] at h; obtain ⟨x, hx, rfl⟩ := map_eq_some_iff'.1 h
      subst ht
      exact ⟨⟨rfl, ((law_certificateStatus.whole _ _).1 hx).1⟩, rfl, ((law_certificateStatus.whole _ _).1 hx).2⟩
    rw [if_neg ht] at h
    have h18 := ht; clear ht
    by_cases ht : t = 0xfe
    · rw [if_pos ht] at h; cases h
    rw [if_neg ht] at h
    have h19 := ht; clear ht
    by_cases ht : t = 0x06
    · rw [if_pos ht] at h; cases h
    rw [if_neg ht] at h
    have h20 := ht; clear ht
    obtain rfl := Option.some.inj h
    have hne : t ∉ handshakeTypes := by
      have a1 : t ≠ 0x0b := h5
      have a2 : t ≠ 0x0d := h10
      have a3 : t ≠ 0x04 := h13
      simp only [handshakeTypes, List.mem_cons, List.not_mem_nil, or_false, not_or]
      refine ⟨?_, ?_, ?_, ?_, ?_, ?_, ?_, ?_, ?_, ?_, ?_, ?_, ?_, ?_, ?_, ?_⟩ <;> assumption
    refine ⟨⟨hne, fun h0 hb => h1 ⟨h0, hb⟩⟩, ?_, rfl⟩
    unfold HandshakeMessage.wireType
    exact if_neg h20
  · rintro ⟨hf, rfl, rfl⟩
    obtain ⟨typ, payload⟩ := m
    cases payload with
    | helloRequest => obtain rfl : typ = 0x00 := hf; rfl
    | clientHello h =>
      obtain ⟨rfl, hf⟩ : typ = 0x01 ∧ _ := hf
      exact map_eq_some_iff'.2 ⟨_, ((endLaw_clientHello dnsOk).whole _ _).2 ⟨hf, rfl⟩, rfl⟩
    | serverHello h =>
      obtain ⟨rfl, hf⟩ : typ = 0x02 ∧ _ := hf
      exact (serverHello_whole _ _).2 (Or.inl ⟨h, rfl, hf, rfl⟩)
    | helloRetryRequest h =>
      obtain ⟨rfl, hf⟩ : typ = 0x06 ∧ _ := hf
      exact (serverHello_whole _ _).2 (Or.inr ⟨h, rfl, hf, rfl⟩)
    | certificate l =>
      obtain ⟨rfl, hv, hf⟩ : typ = 0x0b ∧ vers ≠ .tls13 ∧ _ := hf
      show parseHandshake dnsOk 0x0b vers _ = _
      have hc : ¬((0x0b : UInt8) = 0x0b ∧ vers = .tls13) := fun h => hv h.2
      unfold parseHandshake
      rw [if_neg (fun h => absurd h.1 (by decide)), if_neg (by decide), if_neg (by decide), if_neg hc, if_pos rfl]
      exact map_eq_some_iff'.2 ⟨_, (law_certificates.whole _ _).2 ⟨hf, rfl⟩, rfl⟩
    | certificate13 p =>
      obtain ⟨rfl, rfl, hf⟩ : typ = 0x0b ∧ vers = .tls13 ∧ _ := hf
      exact map_eq_some_iff'.2 ⟨_, (law_certificatePayload13.whole _ _).2 ⟨hf, rfl⟩, rfl⟩
    | serverKeyExchange p => obtain rfl : typ = 0x0c := hf; rfl
    | certificateRequest p =>
      obtain ⟨rfl, hv, hf⟩ : typ = 0x0d ∧ vers ≠ .tls13 ∧ _ := hf
      show parseHandshake dnsOk 0x0d vers _ = _
      have hc : ¬((0x0d : UInt8) = 0x0d ∧ vers = .tls13) := fun h => hv h.2
      unfold parseHandshake
      rw [if_neg (fun h => absurd h.1 (by decide)), if_neg (by decide), if_neg (by decide),
        if_neg (fun h => absurd h.1 (by decide)), if_neg (by decide), if_neg (by decide), if_neg (by decide),
        if_neg (by decide), if_neg hc, if_pos rfl]
      exact map_eq_some_iff'.2 ⟨_, (law_certificateRequest.whole _ _).2 ⟨hf, rfl⟩, rfl⟩
    | certificateRequest13 p =>
      obtain ⟨rfl, rfl, hf⟩ : typ = 0x0d ∧ vers = .tls13 ∧ _ := hf
      exact map_eq_some_iff'.2 ⟨_, (law_certificateRequest13.whole _ _).2 ⟨hf, rfl⟩, rfl⟩
    | certificateVerify d =>
      obtain ⟨rfl, hf⟩ : typ = 0x0f ∧ _ := hf
      exact map_eq_some_iff'.2 ⟨_, (law_digitallySigned.whole _ _).2 ⟨hf, rfl⟩, rfl⟩
    | serverHelloDone => obtain rfl : typ = 0x0e := hf; rfl
    | endOfEarlyData => obtain rfl : typ = 0x05 := hf; rfl
    | clientKeyExchange p => obtain rfl : typ = 0x10 := hf; rfl
    | newSessionTicket p =>
      obtain ⟨rfl, hv, hf⟩ : typ = 0x04 ∧ vers ≠ .tls13 ∧ _ := hf
      show parseHandshake dnsOk 0x04 vers _ = _
      have hc : ¬((0x04 : UInt8) = 0x04 ∧ vers = .tls13) := fun h => hv h.2
      unfold parseHandshake
      rw [if_neg (fun h => absurd h.1 (by decide)), if_neg (by decide), if_neg (by decide),
        if_neg (fun h => absurd h.1 (by decide)), if_neg (by decide), if_neg (by decide), if_neg (by decide),
        if_neg (by decide), if_neg (fun h => absurd h.1 (by decide)), if_neg (by decide), if_neg (by decide),
        if_neg hc, if_pos rfl]
      exact map_eq_some_iff'.2 ⟨_, (law_newSessionTicket.whole _ _).2 ⟨hf, rfl⟩, rfl⟩
    | newSessionTicket13 p =>
      obtain ⟨rfl, rfl, hf⟩ : typ = 0x04 ∧ vers = .tls13 ∧ _ := hf
      exact map_eq_some_iff'.2 ⟨_, (law_newSessionTicket13.whole _ _).2 ⟨hf, rfl⟩, rfl⟩
    | encryptedExtensions l =>
      obtain ⟨rfl, hf⟩ : typ = 0x08 ∧ _ := hf
      exact map_eq_some_iff'.2 ⟨_, (law_serverExtensions.whole _ _).2 ⟨hf, rfl⟩, rfl⟩
    | keyUpdate r =>
      obtain rfl : typ = 0x18 := hf
      show (codecU8.read.whole (codecU8.encode r)).map (fun p => HandshakeMessage.mk 0x18 (.keyUpdate p)) = _
      exact map_eq_some_iff'.2 ⟨r, (law_u8.whole _ _).2 ⟨trivial, rfl⟩, rfl⟩
    | finished p => obtain rfl : typ = 0x14 := hf; rfl
    | certificateStatus p =>
      obtain ⟨rfl, hf⟩ : typ = 0x16 ∧ _ := hf
      exact map_eq_some_iff'.2 ⟨_, (law_certificateStatus.whole _ _).2 ⟨hf, rfl⟩, rfl⟩
    | messageHash p => exact absurd hf id
    | unknown p =>
      obtain ⟨h1, h2⟩ : typ ∉ handshakeTypes ∧ (typ = 0x00 → p ≠ []) := hf
      simp only [handshakeTypes, List.mem_cons, List.not_mem_nil, or_false, not_or] at h1
      have e0 : ¬(typ = 0x00 ∧ p = []) := fun h => h2 h.1 h.2
      simp only [HandshakeMessage.wireType, parseHandshake, HandshakePayload.encode, h1, e0, if_false, false_and]

/-- Reading a handshake message is the inverse of writing it. -/
theorem law_handshakeMessage (dnsOk : Bytes → Bool) (vers : ProtocolVersion) :
    (Codec.mk HandshakeMessage.encode (readHandshakeMessage dnsOk vers)).Law (HandshakeMessage.Fits dnsOk vers) := by
  constructor
  · intro m hm rest
    have h1 : (UInt32.ofNat m.payload.encode.length).toNat = m.payload.encode.length := by
      rw [UInt32.toNat_ofNat']; exact Nat.mod_eq_of_lt (Nat.lt_trans hm.2 (by decide))
    show Yields _ (HandshakeMessage.encode m ++ rest) _ _
    simp only [HandshakeMessage.encode, List.append_assoc]
    refine Yields.bind (u8_inverts _ trivial _) (Yields.bind (u24_inverts _ (by simp only [h1]; exact hm.2) _)
      (Yields.bind (yields_body m.payload.encode rest h1.symm) ?_))
    rw [(parseHandshake_iff dnsOk m.wireType vers m.payload.encode m).2 ⟨hm.1, rfl, rfl⟩]
    exact Yields.lift _ _
  · refine CanonRd.bind (eg := fun m => codecU24.encode ⟨UInt32.ofNat m.payload.encode.length⟩ ++ m.payload.encode)
      u8_canon fun t _ => ?_
    refine CanonRd.bind (eg := fun m => m.payload.encode) u24_canon fun n hn => ?_
    refine CanonRd.bind (eg := fun _ => []) (canon_body n.val.toNat) fun b hb => canon_lift _ _ _ fun m hm => ?_
    obtain ⟨h1, h2, h3⟩ := (parseHandshake_iff dnsOk t vers b m).1 hm
    refine ⟨rfl, ⟨⟨⟨h1, ?_⟩, ?_⟩, ?_⟩, ?_⟩
    · rw [h3, hb]; exact hn
    · show HandshakeMessage.encode m = _
      simp [HandshakeMessage.encode, h2]
    · rw [h3, hb, UInt32.ofNat_toNat]
    · simp [h3]

theorem messagePayload_new (dnsOk : Bytes → Bool) (typ : ContentType) (vers : ProtocolVersion) (b : Bytes)
    (m : MessagePayload) :
    MessagePayload.new dnsOk typ vers b = some m ↔ m.Fits dnsOk vers ∧ m.contentType = typ ∧ m.encode = b := by
  have ha := law_u8.seq law_u8
  have hc := law_u8.check (· == 1)
  have hh := law_handshakeMessage dnsOk vers
  constructor
  · intro h
    cases typ with
    | applicationData => obtain rfl := Option.some.inj h; exact ⟨trivial, rfl, rfl⟩
    | alert =>
      obtain ⟨x, h1, rfl⟩ := map_eq_some_iff'.1 h
      exact ⟨trivial, rfl, ((ha.whole _ _).1 h1).2⟩
    | handshake =>
      obtain ⟨x, h1, rfl⟩ := map_eq_some_iff'.1 h
      exact ⟨((hh.whole _ _).1 h1).1, rfl, ((hh.whole _ _).1 h1).2⟩
    | changeCipherSpec =>
      obtain ⟨x, h1, rfl⟩ := map_eq_some_iff'.1 h
      obtain ⟨⟨_, h2⟩, h3⟩ := (hc.whole _ _).1 h1
      have h2 : x = 1 := by simpa using h2
      subst h2
      exact ⟨trivial, rfl, h3⟩
    | _ => cases h
  · rintro ⟨hf, rfl, rfl⟩
    cases m with
    | applicationData p => rfl
    | alert l d =>
      show (codecAlert.read.whole (codecAlert.encode (l, d))).map (fun p => MessagePayload.alert p.1 p.2) = _
      exact map_eq_some_iff'.2 ⟨(l, d), (ha.whole _ _).2 ⟨⟨trivial, trivial⟩, rfl⟩, rfl⟩
    | handshake m => exact map_eq_some_iff'.2 ⟨m, (hh.whole _ _).2 ⟨hf, rfl⟩, rfl⟩
    | changeCipherSpec =>
      show (codecCcs.read.whole (codecCcs.encode 1)).map (fun _ => MessagePayload.changeCipherSpec) = _
      exact map_eq_some_iff'.2 ⟨1, (hc.whole _ _).2 ⟨⟨trivial, rfl⟩, rfl⟩, rfl⟩

end Tlsn
