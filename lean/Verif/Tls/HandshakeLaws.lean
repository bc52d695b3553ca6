import Verif.Tls.HandshakeLemmas

/-! # Parsing of extensions and messages -/

namespace Tlsn

theorem emptyBody_eq_some {ε : Type} {b : Bytes} {e x : ε} : emptyBody b e = some x ↔ b = [] ∧ e = x := by
  unfold emptyBody
  by_cases h : b = [] <;> simp [h]

theorem clientExtension_parse (dnsOk : Bytes → Bool) (t : UInt16) (b : Bytes) (e : ClientExtension) :
    ClientExtension.parse dnsOk t b = some e ↔ e.BodyFits dnsOk ∧ e.getType = t ∧ e.body = b := by
  constructor
  · intro h
    unfold ClientExtension.parse at h
    by_cases ht : t = 0x000b
    · rw [if_pos ht] at h; obtain ⟨x, h1, rfl⟩ := map_eq_some_iff'.1 h
      exact ⟨((law_u8s.whole _ _).1 h1).1, ht.symm, ((law_u8s.whole _ _).1 h1).2⟩
    rw [if_neg ht] at h
    have h1 := ht; clear ht
    by_cases ht : t = 0x000a
    · rw [if_pos ht] at h; obtain ⟨x, h1, rfl⟩ := map_eq_some_iff'.1 h
      exact ⟨((law_u16s.whole _ _).1 h1).1, ht.symm, ((law_u16s.whole _ _).1 h1).2⟩
    rw [if_neg ht] at h
    have h2 := ht; clear ht
    by_cases ht : t = 0x000d
    · rw [if_pos ht] at h; obtain ⟨x, h1, rfl⟩ := map_eq_some_iff'.1 h
      exact ⟨((law_u16s.whole _ _).1 h1).1, ht.symm, ((law_u16s.whole _ _).1 h1).2⟩
    rw [if_neg ht] at h
    have h3 := ht; clear ht
    by_cases ht : t = 0x0000
    · rw [if_pos ht] at h; obtain ⟨x, h1, rfl⟩ := map_eq_some_iff'.1 h
      exact ⟨(((law_serverNames dnsOk).whole _ _).1 h1).1, ht.symm, (((law_serverNames dnsOk).whole _ _).1 h1).2⟩
    rw [if_neg ht] at h
    have h4 := ht; clear ht
    by_cases ht : t = 0x0023
    · rw [if_pos ht] at h
      by_cases hb : b ≠ []
      · rw [if_pos hb] at h; obtain rfl := Option.some.inj h; exact ⟨hb, ht.symm, rfl⟩
      · rw [if_neg hb] at h; obtain rfl := Option.some.inj h; exact ⟨trivial, ht.symm, (Classical.not_not.1 hb).symm⟩
    rw [if_neg ht] at h
    have h5 := ht; clear ht
    by_cases ht : t = 0x0010
    · rw [if_pos ht] at h; obtain ⟨x, h1, rfl⟩ := map_eq_some_iff'.1 h
      exact ⟨((law_payloads8.whole _ _).1 h1).1, ht.symm, ((law_payloads8.whole _ _).1 h1).2⟩
    rw [if_neg ht] at h
    have h6 := ht; clear ht
    by_cases ht : t = 0x002b
    · rw [if_pos ht] at h; obtain ⟨x, h1, rfl⟩ := map_eq_some_iff'.1 h
      exact ⟨((law_versions.whole _ _).1 h1).1, ht.symm, ((law_versions.whole _ _).1 h1).2⟩
    rw [if_neg ht] at h
    have h7 := ht; clear ht
    by_cases ht : t = 0x0033
    · rw [if_pos ht] at h; obtain ⟨x, h1, rfl⟩ := map_eq_some_iff'.1 h
      exact ⟨((law_keyShares.whole _ _).1 h1).1, ht.symm, ((law_keyShares.whole _ _).1 h1).2⟩
    rw [if_neg ht] at h
    have h8 := ht; clear ht
    by_cases ht : t = 0x002d
    · rw [if_pos ht] at h; obtain ⟨x, h1, rfl⟩ := map_eq_some_iff'.1 h
      exact ⟨((law_u8s.whole _ _).1 h1).1, ht.symm, ((law_u8s.whole _ _).1 h1).2⟩
    rw [if_neg ht] at h
    have h9 := ht; clear ht
    by_cases ht : t = 0x0029
    · rw [if_pos ht] at h; obtain ⟨x, h1, rfl⟩ := map_eq_some_iff'.1 h
      exact ⟨((law_pskOffer.whole _ _).1 h1).1, ht.symm, ((law_pskOffer.whole _ _).1 h1).2⟩
    rw [if_neg ht] at h
    have h10 := ht; clear ht
    by_cases ht : t = 0x002c
    · rw [if_pos ht] at h; obtain ⟨x, h1, rfl⟩ := map_eq_some_iff'.1 h
      exact ⟨((law_payloadU16.whole _ _).1 h1).1, ht.symm, ((law_payloadU16.whole _ _).1 h1).2⟩
    rw [if_neg ht] at h
    have h11 := ht; clear ht
    by_cases ht : t = 0x0017 ∧ b = []
    · rw [if_pos ht] at h; obtain rfl := Option.some.inj h; exact ⟨trivial, ht.1.symm, ht.2.symm⟩
    rw [if_neg ht] at h
    have h12 := ht; clear ht
    by_cases ht : t = 0x0005
    · rw [if_pos ht] at h; obtain ⟨x, h1, rfl⟩ := map_eq_some_iff'.1 h
      exact ⟨((endLaw_statusRequest.whole _ _).1 h1).1, ht.symm, ((endLaw_statusRequest.whole _ _).1 h1).2⟩
    rw [if_neg ht] at h
    have h13 := ht; clear ht
    by_cases ht : t = 0x0012 ∧ b = []
    · rw [if_pos ht] at h; obtain rfl := Option.some.inj h; exact ⟨trivial, ht.1.symm, ht.2.symm⟩
    rw [if_neg ht] at h
    have h14 := ht; clear ht
    by_cases ht : t = 0x0039
    · rw [if_pos ht] at h; obtain rfl := Option.some.inj h; exact ⟨trivial, ht.symm, rfl⟩
    rw [if_neg ht] at h
    have h15 := ht; clear ht
    by_cases ht : t = 0xffa5
    · rw [if_pos ht] at h; obtain rfl := Option.some.inj h; exact ⟨trivial, ht.symm, rfl⟩
    rw [if_neg ht] at h
    have h16 := ht; clear ht
    by_cases ht : t = 0x002a ∧ b = []
    · rw [if_pos ht] at h; obtain rfl := Option.some.inj h; exact ⟨trivial, ht.1.symm, ht.2.symm⟩
    rw [if_neg ht] at h
    have h17 := ht; clear ht
    obtain rfl := Option.some.inj h
    refine ⟨⟨?_, ?_⟩, rfl, rfl⟩
    · simp only [clientExtensionTypes, List.mem_cons, List.not_mem_nil, or_false, not_or]
      exact ⟨h1, h2, h3, h4, h5, h6, h7, h8, h9, h10, h11, h13, h15, h16⟩
    · intro hm hb
      simp only [clientFlagTypes, List.mem_cons, List.not_mem_nil, or_false] at hm
      rcases hm with hm | hm | hm
      · exact h12 ⟨hm, hb⟩
      · exact h14 ⟨hm, hb⟩
      · exact h17 ⟨hm, hb⟩
  · rintro ⟨hf, rfl, rfl⟩
    cases e with
    | ecPointFormats l => exact map_eq_some_iff'.2 ⟨_, (law_u8s.whole _ _).2 ⟨hf, rfl⟩, rfl⟩
    | namedGroups l => exact map_eq_some_iff'.2 ⟨_, (law_u16s.whole _ _).2 ⟨hf, rfl⟩, rfl⟩
    | signatureAlgorithms l => exact map_eq_some_iff'.2 ⟨_, (law_u16s.whole _ _).2 ⟨hf, rfl⟩, rfl⟩
    | serverName l => exact map_eq_some_iff'.2 ⟨_, ((law_serverNames dnsOk).whole _ _).2 ⟨hf, rfl⟩, rfl⟩
    | sessionTicketRequest => rfl
    | sessionTicketOffer p =>
      have hp : p ≠ [] := hf
      show (if p ≠ [] then _ else _) = _
      rw [if_pos hp]; rfl
    | protocols l => exact map_eq_some_iff'.2 ⟨_, (law_payloads8.whole _ _).2 ⟨hf, rfl⟩, rfl⟩
    | supportedVersions l => exact map_eq_some_iff'.2 ⟨_, (law_versions.whole _ _).2 ⟨hf, rfl⟩, rfl⟩
    | keyShare l => exact map_eq_some_iff'.2 ⟨_, (law_keyShares.whole _ _).2 ⟨hf, rfl⟩, rfl⟩
    | presharedKeyModes l => exact map_eq_some_iff'.2 ⟨_, (law_u8s.whole _ _).2 ⟨hf, rfl⟩, rfl⟩
    | presharedKey o => exact map_eq_some_iff'.2 ⟨_, (law_pskOffer.whole _ _).2 ⟨hf, rfl⟩, rfl⟩
    | cookie p => exact map_eq_some_iff'.2 ⟨_, (law_payloadU16.whole _ _).2 ⟨hf, rfl⟩, rfl⟩
    | extendedMasterSecretRequest => rfl
    | certificateStatusRequest r => exact map_eq_some_iff'.2 ⟨_, (endLaw_statusRequest.whole _ _).2 ⟨hf, rfl⟩, rfl⟩
    | signedCertificateTimestampRequest => rfl
    | transportParameters p => rfl
    | transportParametersDraft p => rfl
    | earlyData => rfl
    | unknown typ p =>
      obtain ⟨h1, h2⟩ := hf
      simp only [clientExtensionTypes, List.mem_cons, List.not_mem_nil, or_false, not_or] at h1
      simp only [clientFlagTypes, List.mem_cons, List.not_mem_nil, or_false] at h2
      simp only [ClientExtension.parse, ClientExtension.getType, ClientExtension.body, h1, if_false]
      have e1 : ¬(typ = 0x0017 ∧ p = []) := fun h => h2 (Or.inl h.1) h.2
      have e2 : ¬(typ = 0x0012 ∧ p = []) := fun h => h2 (Or.inr (Or.inl h.1)) h.2
      have e3 : ¬(typ = 0x002a ∧ p = []) := fun h => h2 (Or.inr (Or.inr h.1)) h.2
      simp only [e1, e2, e3, if_false]

theorem law_clientExtension (dnsOk : Bytes → Bool) : (codecClientExtension dnsOk).Law (ClientExtension.Fits dnsOk) :=
  law_extension (clientExtension_parse dnsOk)

theorem law_clientExtensions (dnsOk : Bytes → Bool) :
    (codecClientExtension dnsOk).vecU16.Law (VecFits 16 (codecClientExtension dnsOk) (ClientExtension.Fits dnsOk)) :=
  (law_clientExtension dnsOk).vecU16 fun e _ => extension_encode_ne _ _ _ e

theorem serverExtension_parse (t : UInt16) (b : Bytes) (e : ServerExtension) :
    ServerExtension.parse t b = some e ↔ e.BodyFits ∧ e.getType = t ∧ e.body = b := by
  constructor
  · intro h
    unfold ServerExtension.parse at h
    by_cases ht : t = 0x000b
    · rw [if_pos ht] at h; obtain ⟨x, h1, rfl⟩ := map_eq_some_iff'.1 h
      exact ⟨((law_u8s.whole _ _).1 h1).1, ht.symm, ((law_u8s.whole _ _).1 h1).2⟩
    rw [if_neg ht] at h
    have h1 := ht; clear ht
    by_cases ht : t = 0x0000
    · rw [if_pos ht] at h; obtain ⟨h1, rfl⟩ := emptyBody_eq_some.1 h; exact ⟨trivial, ht.symm, h1.symm⟩
    rw [if_neg ht] at h
    have h2 := ht; clear ht
    by_cases ht : t = 0x0023
    · rw [if_pos ht] at h; obtain ⟨h1, rfl⟩ := emptyBody_eq_some.1 h; exact ⟨trivial, ht.symm, h1.symm⟩
    rw [if_neg ht] at h
    have h3 := ht; clear ht
    by_cases ht : t = 0x0005
    · rw [if_pos ht] at h; obtain ⟨h1, rfl⟩ := emptyBody_eq_some.1 h; exact ⟨trivial, ht.symm, h1.symm⟩
    rw [if_neg ht] at h
    have h4 := ht; clear ht
    by_cases ht : t = 0xff01
    · rw [if_pos ht] at h; obtain ⟨x, h1, rfl⟩ := map_eq_some_iff'.1 h
      exact ⟨((law_payloadU8.whole _ _).1 h1).1, ht.symm, ((law_payloadU8.whole _ _).1 h1).2⟩
    rw [if_neg ht] at h
    have h5 := ht; clear ht
    by_cases ht : t = 0x0010
    · rw [if_pos ht] at h; obtain ⟨x, h1, rfl⟩ := map_eq_some_iff'.1 h
      exact ⟨((law_payloads8.whole _ _).1 h1).1, ht.symm, ((law_payloads8.whole _ _).1 h1).2⟩
    rw [if_neg ht] at h
    have h6 := ht; clear ht
    by_cases ht : t = 0x0033
    · rw [if_pos ht] at h; obtain ⟨x, h1, rfl⟩ := map_eq_some_iff'.1 h
      exact ⟨((law_keyShareEntry.whole _ _).1 h1).1, ht.symm, ((law_keyShareEntry.whole _ _).1 h1).2⟩
    rw [if_neg ht] at h
    have h7 := ht; clear ht
    by_cases ht : t = 0x0029
    · rw [if_pos ht] at h; obtain ⟨x, h1, rfl⟩ := map_eq_some_iff'.1 h
      exact ⟨((law_u16.whole _ _).1 h1).1, ht.symm, ((law_u16.whole _ _).1 h1).2⟩
    rw [if_neg ht] at h
    have h8 := ht; clear ht
    by_cases ht : t = 0x0017
    · rw [if_pos ht] at h; obtain ⟨h1, rfl⟩ := emptyBody_eq_some.1 h; exact ⟨trivial, ht.symm, h1.symm⟩
    rw [if_neg ht] at h
    have h9 := ht; clear ht
    by_cases ht : t = 0x0012
    · rw [if_pos ht] at h; obtain ⟨x, h1, rfl⟩ := map_eq_some_iff'.1 h
      exact ⟨((law_payloads16.whole _ _).1 h1).1, ht.symm, ((law_payloads16.whole _ _).1 h1).2⟩
    rw [if_neg ht] at h
    have h10 := ht; clear ht
    by_cases ht : t = 0x002b
    · rw [if_pos ht] at h; obtain ⟨x, h1, rfl⟩ := map_eq_some_iff'.1 h
      exact ⟨((law_version.whole _ _).1 h1).1, ht.symm, ((law_version.whole _ _).1 h1).2⟩
    rw [if_neg ht] at h
    have h11 := ht; clear ht
    by_cases ht : t = 0x0039
    · rw [if_pos ht] at h; obtain rfl := Option.some.inj h; exact ⟨trivial, ht.symm, rfl⟩
    rw [if_neg ht] at h
    have h12 := ht; clear ht
    by_cases ht : t = 0xffa5
    · rw [if_pos ht] at h; obtain rfl := Option.some.inj h; exact ⟨trivial, ht.symm, rfl⟩
    rw [if_neg ht] at h
    have h13 := ht; clear ht
    by_cases ht : t = 0x002a
    · rw [if_pos ht] at h; obtain ⟨h1, rfl⟩ := emptyBody_eq_some.1 h; exact ⟨trivial, ht.symm, h1.symm⟩
    rw [if_neg ht] at h
    have h14 := ht; clear ht
    obtain rfl := Option.some.inj h
    refine ⟨?_, rfl, rfl⟩
    show t ∉ serverExtensionTypes
    simp only [serverExtensionTypes, List.mem_cons, List.not_mem_nil, or_false, not_or]
    refine ⟨?_, ?_, ?_, ?_, ?_, ?_, ?_, ?_, ?_, ?_, ?_, ?_, ?_, ?_⟩ <;> assumption
  · rintro ⟨hf, rfl, rfl⟩
    cases e with
    | ecPointFormats l => exact map_eq_some_iff'.2 ⟨_, (law_u8s.whole _ _).2 ⟨hf, rfl⟩, rfl⟩
    | renegotiationInfo p => exact map_eq_some_iff'.2 ⟨_, (law_payloadU8.whole _ _).2 ⟨hf, rfl⟩, rfl⟩
    | protocols l => exact map_eq_some_iff'.2 ⟨_, (law_payloads8.whole _ _).2 ⟨hf, rfl⟩, rfl⟩
    | keyShare l => exact map_eq_some_iff'.2 ⟨_, (law_keyShareEntry.whole _ _).2 ⟨hf, rfl⟩, rfl⟩
    | presharedKey o => exact map_eq_some_iff'.2 ⟨_, (law_u16.whole _ _).2 ⟨hf, rfl⟩, rfl⟩
    | signedCertificateTimestamp l => exact map_eq_some_iff'.2 ⟨_, (law_payloads16.whole _ _).2 ⟨hf, rfl⟩, rfl⟩
    | supportedVersions v => exact map_eq_some_iff'.2 ⟨_, (law_version.whole _ _).2 ⟨hf, rfl⟩, rfl⟩
    | serverNameAck => rfl
    | sessionTicketAck => rfl
    | extendedMasterSecretAck => rfl
    | certificateStatusAck => rfl
    | transportParameters p => rfl
    | transportParametersDraft p => rfl
    | earlyData => rfl
    | unknown typ p =>
      have h1 : typ ∉ serverExtensionTypes := hf
      simp only [serverExtensionTypes, List.mem_cons, List.not_mem_nil, or_false, not_or] at h1
      simp only [ServerExtension.parse, ServerExtension.getType, ServerExtension.body, h1, if_false]

theorem law_serverExtension : codecServerExtension.Law ServerExtension.Fits := law_extension serverExtension_parse

theorem law_serverExtensions :
    codecServerExtension.vecU16.Law (VecFits 16 codecServerExtension ServerExtension.Fits) :=
  law_serverExtension.vecU16 fun e _ => extension_encode_ne _ _ _ e

theorem law_helloRetryExtension : codecHelloRetryExtension.Law HelloRetryExtension.Fits :=
  law_extension fun t b e => by
    constructor
    · intro h
      unfold HelloRetryExtension.parse at h
      split at h
      · rename_i ht; obtain ⟨x, h1, rfl⟩ := map_eq_some_iff'.1 h
        exact ⟨trivial, ht.symm, ((law_u16.whole _ _).1 h1).2⟩
      split at h
      · rename_i ht; obtain ⟨x, h1, rfl⟩ := map_eq_some_iff'.1 h
        exact ⟨((law_payloadU16.whole _ _).1 h1).1, ht.symm, ((law_payloadU16.whole _ _).1 h1).2⟩
      split at h
      · rename_i ht; obtain ⟨x, h1, rfl⟩ := map_eq_some_iff'.1 h
        exact ⟨((law_version.whole _ _).1 h1).1, ht.symm, ((law_version.whole _ _).1 h1).2⟩
      obtain rfl := Option.some.inj h
      refine ⟨?_, rfl, rfl⟩
      simp_all
    · rintro ⟨hf, rfl, rfl⟩
      cases e with
      | keyShare g => exact map_eq_some_iff'.2 ⟨_, (law_u16.whole _ _).2 ⟨hf, rfl⟩, rfl⟩
      | cookie p => exact map_eq_some_iff'.2 ⟨_, (law_payloadU16.whole _ _).2 ⟨hf, rfl⟩, rfl⟩
      | supportedVersions v => exact map_eq_some_iff'.2 ⟨_, (law_version.whole _ _).2 ⟨hf, rfl⟩, rfl⟩
      | unknown typ p =>
        simp only [List.mem_cons, List.not_mem_nil, or_false, not_or] at hf
        simp only [HelloRetryExtension.parse, HelloRetryExtension.getType, HelloRetryExtension.body, hf, if_false]

theorem law_certificateExtension : codecCertificateExtension.Law CertificateExtension.Fits :=
  law_extension fun t b e => by
    constructor
    · intro h
      unfold CertificateExtension.parse at h
      split at h
      · rename_i ht; obtain ⟨x, h1, rfl⟩ := map_eq_some_iff'.1 h
        exact ⟨((law_certificateStatus.whole _ _).1 h1).1, ht.symm, ((law_certificateStatus.whole _ _).1 h1).2⟩
      split at h
      · rename_i ht; obtain ⟨x, h1, rfl⟩ := map_eq_some_iff'.1 h
        exact ⟨((law_payloads16.whole _ _).1 h1).1, ht.symm, ((law_payloads16.whole _ _).1 h1).2⟩
      obtain rfl := Option.some.inj h
      refine ⟨?_, rfl, rfl⟩
      simp_all
    · rintro ⟨hf, rfl, rfl⟩
      cases e with
      | certificateStatus p => exact map_eq_some_iff'.2 ⟨_, (law_certificateStatus.whole _ _).2 ⟨hf, rfl⟩, rfl⟩
      | signedCertificateTimestamp l => exact map_eq_some_iff'.2 ⟨_, (law_payloads16.whole _ _).2 ⟨hf, rfl⟩, rfl⟩
      | unknown typ p =>
        simp only [List.mem_cons, List.not_mem_nil, or_false, not_or] at hf
        simp only [CertificateExtension.parse, CertificateExtension.getType, CertificateExtension.body, hf, if_false]

theorem law_certificateEntry : codecCertificateEntry.Law CertificateEntry.Fits :=
  ((law_payloadU24.seq (law_certificateExtension.vecU16 fun e _ => extension_encode_ne _ _ _ e)).fields (fun _ => rfl)
    (fun _ _ => rfl)).mono fun _ => Iff.rfl

theorem law_certificatePayload13 : codecCertificatePayload13.Law CertificatePayload13.Fits :=
  ((law_payloadU8.seq (law_certificateEntry.vecU24 fun e _ => by
    simp [codecCertificateEntry, Codec.fields, Codec.seq, payloadU24_encode_ne])).fields (fun _ => rfl)
    (fun _ _ => rfl)).mono fun _ => Iff.rfl

theorem law_certReqExtension : codecCertReqExtension.Law CertReqExtension.Fits :=
  law_extension fun t b e => by
    have hl := law_u16s.check fun l => !l.isEmpty
    constructor
    · intro h
      unfold CertReqExtension.parse at h
      split at h
      · rename_i ht; obtain ⟨x, h1, rfl⟩ := map_eq_some_iff'.1 h
        obtain ⟨⟨h2, h3⟩, h4⟩ := (hl.whole _ _).1 h1
        exact ⟨⟨h2, by simpa using h3⟩, ht.symm, h4⟩
      split at h
      · rename_i ht; obtain ⟨x, h1, rfl⟩ := map_eq_some_iff'.1 h
        exact ⟨((law_payloads16.whole _ _).1 h1).1, ht.symm, ((law_payloads16.whole _ _).1 h1).2⟩
      obtain rfl := Option.some.inj h
      refine ⟨?_, rfl, rfl⟩
      simp_all
    · rintro ⟨hf, rfl, rfl⟩
      cases e with
      | signatureAlgorithms l =>
        exact map_eq_some_iff'.2 ⟨_, (hl.whole _ _).2 ⟨⟨hf.1, by simpa using hf.2⟩, rfl⟩, rfl⟩
      | authorityNames l => exact map_eq_some_iff'.2 ⟨_, (law_payloads16.whole _ _).2 ⟨hf, rfl⟩, rfl⟩
      | unknown typ p =>
        simp only [List.mem_cons, List.not_mem_nil, or_false, not_or] at hf
        simp only [CertReqExtension.parse, CertReqExtension.getType, CertReqExtension.body, hf, if_false]

theorem law_certificateRequest13 : codecCertificateRequest13.Law CertificateRequest13.Fits :=
  ((law_payloadU8.seq (law_certReqExtension.vecU16 fun e _ => extension_encode_ne _ _ _ e)).fields (fun _ => rfl)
    (fun _ _ => rfl)).mono fun _ => Iff.rfl

theorem law_newSessionTicketExtension : codecNewSessionTicketExtension.Law NewSessionTicketExtension.Fits :=
  law_extension fun t b e => by
    constructor
    · intro h
      unfold NewSessionTicketExtension.parse at h
      split at h
      · rename_i ht; obtain ⟨x, h1, rfl⟩ := map_eq_some_iff'.1 h
        exact ⟨trivial, ht.symm, ((law_u32.whole _ _).1 h1).2⟩
      obtain rfl := Option.some.inj h
      refine ⟨?_, rfl, rfl⟩
      simp_all
    · rintro ⟨hf, rfl, rfl⟩
      cases e with
      | earlyData l => exact map_eq_some_iff'.2 ⟨_, (law_u32.whole _ _).2 ⟨hf, rfl⟩, rfl⟩
      | unknown typ p =>
        have h1 : typ ≠ 0x002a := hf
        simp only [NewSessionTicketExtension.parse, NewSessionTicketExtension.getType, NewSessionTicketExtension.body, h1,
          if_false]

theorem law_newSessionTicket13 : codecNewSessionTicket13.Law NewSessionTicket13.Fits :=
  ((law_u32.seq (law_u32.seq (law_payloadU8.seq (law_payloadU16.seq (law_newSessionTicketExtension.vecU16
    fun e _ => extension_encode_ne _ _ _ e))))).fields (fun _ => rfl) (fun _ _ => rfl)).mono fun _ => by
      simp [NewSessionTicket13.Fits]

/-! ### Hellos -/

theorem encodeAll_congr {α : Type} {c c' : Codec α} (h : c.encode = c'.encode) (l : List α) :
    encodeAll c l = encodeAll c' l := by
  unfold encodeAll; rw [h]

theorem clientExtension_encode_eq (f g : Bytes → Bool) :
    (codecClientExtension f).encode = (codecClientExtension g).encode := rfl

theorem encodeVecU16_congr {α : Type} {c c' : Codec α} (h : c.encode = c'.encode) (l : List α) :
    c.vecU16.encode l = c'.vecU16.encode l := by
  show encodeVecU16 c l = encodeVecU16 c' l
  unfold encodeVecU16
  rw [encodeAll_congr h]

theorem encodeVecU16_ne_nil {α : Type} (c : Codec α) (l : List α) : c.vecU16.encode l ≠ [] := by
  show encodeVecU16 c l ≠ []
  intro h
  have := congrArg List.length h
  simp [encodeVecU16] at this

theorem endLaw_clientExtensions (dnsOk : Bytes → Bool) :
    EndLaw (readClientExtensions dnsOk) encodeClientExtensions
      fun l => VecFits 16 (codecClientExtension dnsOk) (ClientExtension.Fits dnsOk) l ∧ l ≠ [] := by
  have hl := law_clientExtensions dnsOk
  have henc : ∀ l, l ≠ [] → encodeClientExtensions l = (codecClientExtension dnsOk).vecU16.encode l := by
    intro l hl
    unfold encodeClientExtensions
    rw [if_neg hl]
    exact encodeVecU16_congr (clientExtension_encode_eq _ _) l
  constructor
  · intro l hx r hr
    rw [henc l hx.2] at hr
    have ha : r.anyLeft = true := by
      rw [hr.anyLeft]
      have : (codecClientExtension dnsOk).vecU16.encode l ≠ [] := encodeVecU16_ne_nil _ l
      generalize (codecClientExtension dnsOk).vecU16.encode l = e at this
      cases e with
      | nil => exact absurd rfl this
      | cons a b => rfl
    have h0 := hl.inv l hx.1 []
    rw [List.append_nil] at h0
    obtain ⟨r', h1, h2, h3⟩ := h0 r hr
    refine ⟨r', ?_, h2, h3⟩
    unfold readClientExtensions
    rw [if_pos ha, h1]
    have h4 : r'.anyLeft = false := by rw [h2.anyLeft]; rfl
    simp [h4, hx.2]
  · intro r r' l ho h
    unfold readClientExtensions at h
    by_cases ha : r.anyLeft = true
    · rw [if_pos ha] at h
      cases hr : (codecClientExtension dnsOk).vecU16.read r with
      | none => rw [hr] at h; cases h
      | some p =>
        obtain ⟨l', r1⟩ := p
        rw [hr] at h
        simp only at h
        by_cases hc : r1.anyLeft = true ∨ l' = []
        · rw [if_pos hc] at h; cases h
        · rw [if_neg hc] at h
          simp only [Option.some.injEq, Prod.mk.injEq] at h
          obtain ⟨rfl, rfl⟩ := h
          have hne : l' ≠ [] := fun h => hc (Or.inr h)
          obtain ⟨h1, h2, h3⟩ := hl.canon r r1 l' ho hr
          rw [← henc l' hne] at h3
          exact ⟨⟨h1, hne⟩, h2, h3⟩
    · rw [if_neg ha] at h; cases h

theorem endLaw_clientHello (dnsOk : Bytes → Bool) :
    EndLaw (readClientHello dnsOk) ClientHello.encode (ClientHello.Fits dnsOk) := by
  constructor
  · intro h hf
    exact Yields.bind (law_version.inv _ hf.version _) (Yields.bind (law_random.inv _ hf.random _)
      (Yields.bind (law_sessionId.inv _ hf.sessionId _) (Yields.bind (law_u16s.inv _ hf.suites _)
        (Yields.bind (law_u8s.inv _ hf.compression _) (Yields.bind
          ((endLaw_clientExtensions dnsOk).yields _ ⟨hf.extensions, hf.some⟩) (Yields.pure _ _))))))
  · refine CanonRd.bind (eg := fun h => codecRandom.encode h.random ++ (codecSessionId.encode h.sessionId ++
      (codecU16.vecU16.encode h.cipherSuites ++ (codecU8.vecU8.encode h.compressionMethods ++
        encodeClientExtensions h.extensions)))) law_version.canon fun v hv => ?_
    refine CanonRd.bind (eg := fun h => codecSessionId.encode h.sessionId ++
      (codecU16.vecU16.encode h.cipherSuites ++ (codecU8.vecU8.encode h.compressionMethods ++
        encodeClientExtensions h.extensions))) law_random.canon fun random hr => ?_
    refine CanonRd.bind (eg := fun h => codecU16.vecU16.encode h.cipherSuites ++
      (codecU8.vecU8.encode h.compressionMethods ++ encodeClientExtensions h.extensions)) law_sessionId.canon
        fun sid hs => ?_
    refine CanonRd.bind (eg := fun h => codecU8.vecU8.encode h.compressionMethods ++
      encodeClientExtensions h.extensions) law_u16s.canon fun suites hsu => ?_
    refine CanonRd.bind (eg := fun h => encodeClientExtensions h.extensions) law_u8s.canon fun comp hco => ?_
    refine CanonRd.bind (eg := fun _ => []) (endLaw_clientExtensions dnsOk).canon fun exts he => ?_
    refine canon_pure _ _ _ rfl ⟨⟨⟨⟨⟨⟨⟨hv, hr, hs, hsu, hco, he.1, he.2⟩, ?_⟩, ?_⟩, ?_⟩, ?_⟩, ?_⟩, ?_⟩ <;>
      simp [ClientHello.encode]

/-- What follows the version and the random of a server hello. -/
def ServerHello.tail (h : ServerHello) : Bytes :=
  codecSessionId.encode h.sessionId ++ (codecU16.encode h.cipherSuite ++ (codecU8.encode h.compressionMethod ++
    codecServerExtension.vecU16.encode h.extensions))

theorem serverHello_yields (h : ServerHello) (hs : h.sessionId.length ≤ 32)
    (he : VecFits 16 codecServerExtension ServerExtension.Fits h.extensions) :
    Yields (readServerHello h.legacyVersion h.random) h.tail h [] := by
  have h0 := law_serverExtensions.inv _ he []
  rw [List.append_nil] at h0
  exact Yields.bind (law_sessionId.inv _ hs _) (Yields.bind (law_u16.inv _ trivial _)
    (Yields.bind (law_u8.inv _ trivial _) (Yields.bind h0 (Yields.pure _ _))))

theorem serverHello_canon (v : ProtocolVersion) (random : Bytes) :
    CanonRd (readServerHello v random) ServerHello.tail fun h => h.legacyVersion = v ∧ h.random = random ∧
      h.sessionId.length ≤ 32 ∧ VecFits 16 codecServerExtension ServerExtension.Fits h.extensions := by
  refine CanonRd.bind (eg := fun h => codecU16.encode h.cipherSuite ++ (codecU8.encode h.compressionMethod ++
    codecServerExtension.vecU16.encode h.extensions)) law_sessionId.canon fun sid hs => ?_
  refine CanonRd.bind (eg := fun h => codecU8.encode h.compressionMethod ++
    codecServerExtension.vecU16.encode h.extensions) law_u16.canon fun suite _ => ?_
  refine CanonRd.bind (eg := fun h => codecServerExtension.vecU16.encode h.extensions) law_u8.canon fun comp _ => ?_
  refine CanonRd.bind (eg := fun _ => []) law_serverExtensions.canon fun exts he => ?_
  refine canon_pure _ _ _ rfl ⟨⟨⟨⟨⟨rfl, rfl, hs, he⟩, ?_⟩, ?_⟩, ?_⟩, ?_⟩ <;> simp [ServerHello.tail]

/-- What follows the version and the random of a hello retry request. -/
def HelloRetryRequest.tail (h : HelloRetryRequest) : Bytes :=
  codecSessionId.encode h.sessionId ++ (codecU16.encode h.cipherSuite ++ (codecU8.encode 0 ++
    codecHelloRetryExtension.vecU16.encode h.extensions))

theorem law_helloRetryExtensions :
    codecHelloRetryExtension.vecU16.Law (VecFits 16 codecHelloRetryExtension HelloRetryExtension.Fits) :=
  law_helloRetryExtension.vecU16 fun e _ => extension_encode_ne _ _ _ e

theorem helloRetry_yields (h : HelloRetryRequest) (hs : h.sessionId.length ≤ 32)
    (he : VecFits 16 codecHelloRetryExtension HelloRetryExtension.Fits h.extensions) :
    Yields (readHelloRetryRequest h.legacyVersion) h.tail h [] := by
  have h0 := law_helloRetryExtensions.inv _ he []
  rw [List.append_nil] at h0
  exact Yields.bind (law_sessionId.inv _ hs _) (Yields.bind (law_u16.inv _ trivial _)
    (Yields.bind ((law_u8.check (· == 0)).inv 0 ⟨trivial, rfl⟩ _) (Yields.bind h0 (Yields.pure _ _))))

theorem helloRetry_canon (v : ProtocolVersion) :
    CanonRd (readHelloRetryRequest v) HelloRetryRequest.tail fun h => h.legacyVersion = v ∧
      h.sessionId.length ≤ 32 ∧ VecFits 16 codecHelloRetryExtension HelloRetryExtension.Fits h.extensions := by
  refine CanonRd.bind (eg := fun h => codecU16.encode h.cipherSuite ++ (codecU8.encode 0 ++
    codecHelloRetryExtension.vecU16.encode h.extensions)) law_sessionId.canon fun sid hs => ?_
  refine CanonRd.bind (eg := fun h => codecU8.encode 0 ++
    codecHelloRetryExtension.vecU16.encode h.extensions) law_u16.canon fun suite _ => ?_
  refine CanonRd.bind (eg := fun h => codecHelloRetryExtension.vecU16.encode h.extensions)
    (law_u8.check (· == 0)).canon fun comp hc => ?_
  have hc : comp = 0 := by simpa using hc
  subst hc
  refine CanonRd.bind (eg := fun _ => []) law_helloRetryExtensions.canon fun exts he => ?_
  refine canon_pure _ _ _ rfl ⟨⟨⟨⟨⟨rfl, hs, he⟩, ?_⟩, ?_⟩, ?_⟩, ?_⟩ <;> simp [HelloRetryRequest.tail, Codec.check]

theorem serverHello_whole (b : Bytes) (m : HandshakeMessage) :
    readServerHelloOrRetry.whole b = some m ↔
      (∃ h, m = ⟨0x02, .serverHello h⟩ ∧ h.Fits ∧ h.encode = b) ∨
      (∃ h, m = ⟨0x06, .helloRetryRequest h⟩ ∧ h.Fits ∧ h.encode = b) := by
  have law : EndLaw readServerHelloOrRetry (fun m => m.payload.encode) fun m =>
      (∃ h, m = ⟨0x02, .serverHello h⟩ ∧ h.Fits) ∨ (∃ h, m = ⟨0x06, .helloRetryRequest h⟩ ∧ h.Fits) := by
    constructor
    · rintro m (⟨h, rfl, hf⟩ | ⟨h, rfl, hf⟩)
      · refine Yields.bind (law_version.inv _ hf.version _) (Yields.bind (law_random.inv _ hf.random _) ?_)
        rw [if_neg hf.notRetry]
        exact Yields.bind (serverHello_yields h hf.sessionId hf.extensions) (Yields.pure _ _)
      · refine Yields.bind (law_version.inv _ hf.version _) (Yields.bind (law_random.inv helloRetryRandom rfl _) ?_)
        rw [if_pos rfl]
        exact Yields.bind (helloRetry_yields h hf.sessionId hf.extensions) (Yields.pure _ _)
    · refine CanonRd.bind (eg := fun m => match m.payload with
          | .serverHello h => codecRandom.encode h.random ++ h.tail
          | .helloRetryRequest h => helloRetryRandom ++ h.tail
          | _ => []) law_version.canon fun v hv => ?_
      refine CanonRd.bind (eg := fun m => match m.payload with
          | .serverHello h => h.tail
          | .helloRetryRequest h => h.tail
          | _ => []) law_random.canon fun random hr => ?_
      by_cases hh : random = helloRetryRandom
      · rw [if_pos hh]
        subst hh
        refine CanonRd.bind (eg := fun _ => []) (helloRetry_canon v) fun h hx => canon_pure _ _ _ rfl ?_
        obtain ⟨rfl, h2, h3⟩ := hx
        exact ⟨⟨⟨Or.inr ⟨h, rfl, hv, h2, h3⟩, rfl⟩, rfl⟩, by simp⟩
      · rw [if_neg hh]
        refine CanonRd.bind (eg := fun _ => []) (serverHello_canon v random) fun h hx => canon_pure _ _ _ rfl ?_
        obtain ⟨rfl, rfl, h2, h3⟩ := hx
        exact ⟨⟨⟨Or.inl ⟨h, rfl, hv, hr, hh, h2, h3⟩, rfl⟩, rfl⟩, by simp⟩
  rw [law.whole]
  constructor
  · rintro ⟨⟨h, rfl, hf⟩ | ⟨h, rfl, hf⟩, hb⟩
    · exact Or.inl ⟨h, rfl, hf, hb⟩
    · exact Or.inr ⟨h, rfl, hf, hb⟩
  · rintro (⟨h, rfl, hf, hb⟩ | ⟨h, rfl, hf, hb⟩)
    · exact ⟨Or.inl ⟨h, rfl, hf⟩, hb⟩
    · exact ⟨Or.inr ⟨h, rfl, hf⟩, hb⟩

end Tlsn
