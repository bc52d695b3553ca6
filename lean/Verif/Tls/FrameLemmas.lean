import Verif.Tls.CodecLemmas
import Verif.Tls.Framing

/-! # Lemmas about records -/

namespace Tlsn

theorem and_ff00 {v : Nat} (h : v < 65536) : v &&& 0xff00 = v / 256 * 256 := by
  have e : (0xff00 : Nat) = (2 ^ 8 - 1) <<< 8 := by decide
  have e2 : v / 256 * 256 = (v >>> 8) <<< 8 := by
    rw [Nat.shiftRight_eq_div_pow, Nat.shiftLeft_eq]
  rw [e, e2]
  apply Nat.eq_of_testBit_eq
  intro i
  rw [Nat.testBit_and, Nat.testBit_shiftLeft, Nat.testBit_shiftLeft, Nat.testBit_two_pow_sub_one,
    Nat.testBit_shiftRight]
  by_cases hi : i ≥ 8
  · simp only [hi, decide_true, Bool.true_and]
    rw [show 8 + (i - 8) = i by omega]
    by_cases hj : i - 8 < 8
    · simp [hj]
    · have : v.testBit i = false := Nat.testBit_lt_two_pow (by
        refine Nat.lt_of_lt_of_le h ?_
        exact Nat.pow_le_pow_right (n := 2) (i := 16) (by decide) (by omega))
      simp [this]
  · simp [hi]

theorem ofU8_isUnknown (t : Byte) : (ContentType.ofU8 t).isUnknown = false ↔
    (t = 0x14 ∨ t = 0x15 ∨ t = 0x16 ∨ t = 0x17 ∨ t = 0x18) := by
  unfold ContentType.ofU8
  split
  · next h => simp [h, ContentType.isUnknown]
  split
  · next h => simp [h, ContentType.isUnknown]
  split
  · next h => simp [h, ContentType.isUnknown]
  split
  · next h => simp [h, ContentType.isUnknown]
  split
  · next h => simp [h, ContentType.isUnknown]
  simp [ContentType.isUnknown, *]

theorem ofU8_appData (t : Byte) : ContentType.ofU8 t = .applicationData ↔ t = 0x17 := by
  unfold ContentType.ofU8
  split
  · next h => simp [h]
  split
  · next h => simp [h]
  split
  · next h => simp [h]
  split
  · next h => simp [h]
  split
  · next h => simp [h]
  simp [*]

theorem ofU16_illegal {v : Nat} (hv : v < 65536) : (ProtocolVersion.ofU16 (UInt16.ofNat v)).isIllegal = false ↔
    (v / 256 = 3 ∨ v = 0x0200 ∨ v = 0xFEFF ∨ v = 0xFEFD) := by
  have hn : ∀ w : Nat, w < 65536 → (UInt16.ofNat v = UInt16.ofNat w ↔ v = w) := by
    intro w hw
    rw [← UInt16.toNat_inj, UInt16.toNat_ofNat', UInt16.toNat_ofNat', Nat.mod_eq_of_lt hv, Nat.mod_eq_of_lt hw]
  have hcase : ∀ w : Nat, w < 65536 → ∀ {p : Prop}, (UInt16.ofNat v = UInt16.ofNat w) → (v = w → p) → p :=
    fun w hw p h hp => hp ((hn w hw).1 h)
  unfold ProtocolVersion.ofU16
  split
  · next h => exact hcase 0x0200 (by decide) h fun e => by simp [ProtocolVersion.isIllegal, e]
  split
  · next h => exact hcase 0x0300 (by decide) h fun e => by simp [ProtocolVersion.isIllegal, e]
  split
  · next h => exact hcase 0x0301 (by decide) h fun e => by simp [ProtocolVersion.isIllegal, e]
  split
  · next h => exact hcase 0x0302 (by decide) h fun e => by simp [ProtocolVersion.isIllegal, e]
  split
  · next h => exact hcase 0x0303 (by decide) h fun e => by simp [ProtocolVersion.isIllegal, e]
  split
  · next h => exact hcase 0x0304 (by decide) h fun e => by simp [ProtocolVersion.isIllegal, e]
  split
  · next h => exact hcase 0xFEFF (by decide) h fun e => by simp [ProtocolVersion.isIllegal, e]
  split
  · next h => exact hcase 0xFEFD (by decide) h fun e => by simp [ProtocolVersion.isIllegal, e]
  · next h2 h3 h4 h5 h6 h7 h8 h9 =>
    have g1 : v ≠ 0x0200 := fun e => h2 (by rw [e]; rfl)
    have g2 : v ≠ 0xFEFF := fun e => h8 (by rw [e]; rfl)
    have g3 : v ≠ 0xFEFD := fun e => h9 (by rw [e]; rfl)
    simp only [ProtocolVersion.isIllegal, g1, g2, g3, or_false]
    have : (UInt16.ofNat v &&& 0xff00 != 0x0300) = false ↔ v &&& 0xff00 = 0x0300 := by
      rw [bne_eq_false_iff_eq, ← UInt16.toNat_inj, UInt16.toNat_and, UInt16.toNat_ofNat', Nat.mod_eq_of_lt hv]
      rfl
    rw [this, and_ff00 hv]
    omega

theorem yields_type (t : Byte) (rest : Bytes) : Yields codecContentType.read (t :: rest) (ContentType.ofU8 t) rest :=
  Yields.bind (u8_inverts t trivial rest) (Yields.pure _ _)

theorem yields_u16 {v : Nat} (hv : v < 65536) (rest : Bytes) :
    Yields codecU16.read (beBytes 2 v ++ rest) (UInt16.ofNat v) rest := by
  have := u16_inverts (UInt16.ofNat v) trivial rest
  simpa [codecU16, UInt16.toNat_ofNat', Nat.mod_eq_of_lt hv] using this

theorem yields_version {v : Nat} (hv : v < 65536) (rest : Bytes) :
    Yields codecVersion.read (beBytes 2 v ++ rest) (ProtocolVersion.ofU16 (UInt16.ofNat v)) rest :=
  Yields.bind (yields_u16 hv rest) (Yields.pure _ _)

theorem rd_take_none {n : Nat} {r : Reader} {bs : Bytes} (hr : r.At bs) (h : bs.length < n) : Rd.take n r = none := by
  unfold Rd.take
  rw [if_pos (by rw [hr.left]; exact h)]

theorem type_none {r : Reader} (hr : r.At []) : codecContentType.read r = none := by
  show ((Rd.take 1 r).bind _).bind _ = none
  rw [rd_take_none hr (by simp)]
  rfl

theorem u16_none {r : Reader} {bs : Bytes} (hr : r.At bs) (h : bs.length < 2) : codecU16.read r = none := by
  show (Rd.take 2 r).bind _ = none
  rw [rd_take_none hr h]
  rfl

theorem version_none {r : Reader} {bs : Bytes} (hr : r.At bs) (h : bs.length < 2) : codecVersion.read r = none := by
  show (codecU16.read r).bind _ = none
  rw [u16_none hr h]
  rfl

theorem body_none {n : Nat} {r : Reader} {bs : Bytes} (hr : r.At bs) (h : bs.length < n) : readBody n r = none := by
  show ((Rd.take n r).bind _).bind _ = none
  rw [rd_take_none hr h]
  rfl

theorem beNat2_lt (a b : Byte) : beNat [a, b] < 65536 := by
  have := beNat_lt [a, b]
  simpa using this

theorem opaque_short {b : Bytes} (h : b.length < 5) :
    OpaqueMessage.read (Reader.init b) = .err .tooShortForHeader := by
  unfold OpaqueMessage.read
  cases b with
  | nil => rw [type_none (Reader.init_at [])]
  | cons t b =>
    obtain ⟨r1, e1, a1, _⟩ := yields_type t b (Reader.init (t :: b)) (Reader.init_at _)
    rw [e1]
    simp only
    by_cases h2 : b.length < 2
    · rw [version_none a1 h2]
    · match b with
      | [] => simp at h2
      | [_] => simp at h2
      | b0 :: b1 :: bs =>
        have hb : b0 :: b1 :: bs = beBytes 2 (beNat [b0, b1]) ++ bs := by
          have := beBytes_beNat [b0, b1]
          simp only [List.length_cons, List.length_nil] at this
          rw [this]; rfl
        rw [hb] at a1
        obtain ⟨r2, e2, a2, _⟩ := yields_version (beNat2_lt b0 b1) bs r1 a1
        rw [e2]
        simp only
        rw [u16_none a2 (by simp at h; omega)]

theorem hasHeader_of_length {b : Bytes} (h : 5 ≤ b.length) : ∃ t v l body, HasHeader b t v l body := by
  match b, h with
  | t :: b0 :: b1 :: c0 :: c1 :: body, _ =>
    refine ⟨t, beNat [b0, b1], beNat [c0, c1], body, beNat2_lt b0 b1, beNat2_lt c0 c1, ?_⟩
    have h1 := beBytes_beNat [b0, b1]
    have h2 := beBytes_beNat [c0, c1]
    simp only [List.length_cons, List.length_nil] at h1 h2
    rw [h1, h2]
    rfl

theorem legalHeader_iff {t : Byte} {v l : Nat} (hv : v < 65536) (hl : l < 65536) :
    LegalHeader t v l ↔
      ¬ (ContentType.ofU8 t ≠ .applicationData ∧ UInt16.ofNat l = 0) ∧ ¬ UInt16.ofNat l ≥ maxPayload ∧
        (ContentType.ofU8 t).isUnknown = false ∧ (ProtocolVersion.ofU16 (UInt16.ofNat v)).isIllegal = false := by
  have e1 : UInt16.ofNat l = 0 ↔ l = 0 := by
    rw [← UInt16.toNat_inj, UInt16.toNat_ofNat', Nat.mod_eq_of_lt hl]; rfl
  have e2 : UInt16.ofNat l ≥ maxPayload ↔ 18432 ≤ l := by
    show maxPayload ≤ _ ↔ _
    rw [UInt16.le_iff_toNat_le, UInt16.toNat_ofNat', Nat.mod_eq_of_lt hl]; rfl
  rw [e1, e2, ofU8_isUnknown, ofU16_illegal hv, ne_eq, ofU8_appData]
  unfold LegalHeader
  have e3 : ¬ (¬ t = 0x17 ∧ l = 0) ↔ (l = 0 → t = 0x17) := by
    constructor
    · intro h hl; exact Classical.byContradiction fun hc => h ⟨hc, hl⟩
    · intro h ⟨h1, h2⟩; exact h1 (h h2)
  rw [e3]
  constructor
  · rintro ⟨a, b, c, d⟩; exact ⟨d, by omega, a, b⟩
  · rintro ⟨a, b, c, d⟩; exact ⟨c, d, by omega, a⟩

theorem opaque_header {b : Bytes} {t : Byte} {v l : Nat} {body : Bytes} (h : HasHeader b t v l body) :
    (¬ LegalHeader t v l → ∃ e, OpaqueMessage.read (Reader.init b) = .err e ∧ e ≠ .tooShortForHeader ∧
      e ≠ .tooShortForLength) ∧
    (LegalHeader t v l → body.length < l → OpaqueMessage.read (Reader.init b) = .err .tooShortForLength) ∧
    (LegalHeader t v l → l ≤ body.length → OpaqueMessage.read (Reader.init b) =
      .ok (⟨ContentType.ofU8 t, ProtocolVersion.ofU16 (UInt16.ofNat v), body.take l⟩, ⟨b, 5 + l⟩)) := by
  obtain ⟨hv, hl, hb⟩ := h
  rw [legalHeader_iff hv hl]
  obtain ⟨r1, e1, a1, b1⟩ := yields_type t (beBytes 2 v ++ (beBytes 2 l ++ body)) (Reader.init b)
    (by rw [hb]; exact Reader.init_at _)
  obtain ⟨r2, e2, a2, b2⟩ := yields_version hv _ r1 a1
  obtain ⟨r3, e3, a3, b3⟩ := yields_u16 hl _ r2 a2
  have hl' : (UInt16.ofNat l).toNat = l := by rw [UInt16.toNat_ofNat', Nat.mod_eq_of_lt hl]
  unfold OpaqueMessage.read
  rw [e1]; simp only
  rw [e2]; simp only
  rw [e3]; simp only
  refine ⟨?_, ?_, ?_⟩
  · intro hn
    by_cases c1 : ContentType.ofU8 t ≠ .applicationData ∧ UInt16.ofNat l = 0
    · rw [if_pos c1]; exact ⟨_, rfl, by simp, by simp⟩
    rw [if_neg c1]
    by_cases c2 : UInt16.ofNat l ≥ maxPayload
    · rw [if_pos c2]; exact ⟨_, rfl, by simp, by simp⟩
    rw [if_neg c2]
    by_cases c3 : (ContentType.ofU8 t).isUnknown = true
    · rw [if_pos c3]; exact ⟨_, rfl, by simp, by simp⟩
    rw [if_neg c3]
    by_cases c4 : (ProtocolVersion.ofU16 (UInt16.ofNat v)).isIllegal = true
    · rw [if_pos c4]; exact ⟨_, rfl, by simp, by simp⟩
    · exact absurd ⟨c1, c2, by simpa using c3, by simpa using c4⟩ hn
  · rintro ⟨c1, c2, c3, c4⟩ hlt
    rw [if_neg c1, if_neg c2, c3, c4]
    simp only [Bool.false_eq_true, if_false]
    rw [body_none a3 (by omega)]
  · rintro ⟨c1, c2, c3, c4⟩ hle
    rw [if_neg c1, if_neg c2, c3, c4]
    simp only [Bool.false_eq_true, if_false, hl']
    rw [← List.take_append_drop l body] at a3
    obtain ⟨r4, e4, a4, b4⟩ := yields_body (body.take l) (body.drop l) (n := l) (by simp; omega) r3 a3
    rw [e4]
    simp only [Outcome.ok.injEq, Prod.mk.injEq, true_and]
    have hbuf : r4.buf = b := by rw [b4, b3, b2, b1]; rfl
    refine a4.eq ⟨?_, ?_⟩ hbuf
    · rw [hb]; simp; omega
    · show b.drop (5 + l) = _
      rw [hb, ← List.drop_drop]
      congr 1

/-- The verdict on the front of the deframer's buffer. -/
def opaqueFront (b : Bytes) : FrontStep OpaqueMessage :=
  match OpaqueMessage.read (Reader.init b) with
  | .ok (m, rd) => .msg m rd.used
  | .err .tooShortForHeader => .more
  | .err .tooShortForLength => .more
  | _ => .bad

theorem HasHeader.append {b : Bytes} {t : Byte} {v l : Nat} {body : Bytes} (h : HasHeader b t v l body) (c : Bytes) :
    HasHeader (b ++ c) t v l (body ++ c) := by
  obtain ⟨hv, hl, hb⟩ := h
  exact ⟨hv, hl, by rw [hb]; simp⟩

/-- The three verdicts. -/
theorem opaqueFront_cases (b : Bytes) :
    (b.length < 5 ∧ opaqueFront b = .more) ∨
    (∃ t v l body, HasHeader b t v l body ∧ ¬ LegalHeader t v l ∧ opaqueFront b = .bad) ∨
    (∃ t v l body, HasHeader b t v l body ∧ LegalHeader t v l ∧ body.length < l ∧ opaqueFront b = .more) ∨
    (∃ t v l body, HasHeader b t v l body ∧ LegalHeader t v l ∧ l ≤ body.length ∧
      opaqueFront b = .msg ⟨ContentType.ofU8 t, ProtocolVersion.ofU16 (UInt16.ofNat v), body.take l⟩ (5 + l)) := by
  unfold opaqueFront
  by_cases h5 : b.length < 5
  · exact .inl ⟨h5, by rw [opaque_short h5]⟩
  · obtain ⟨t, v, l, body, hh⟩ := hasHeader_of_length (Nat.le_of_not_lt h5)
    obtain ⟨h1, h2, h3⟩ := opaque_header hh
    by_cases hleg : LegalHeader t v l
    · by_cases hlt : body.length < l
      · exact .inr (.inr (.inl ⟨t, v, l, body, hh, hleg, hlt, by rw [h2 hleg hlt]⟩))
      · exact .inr (.inr (.inr ⟨t, v, l, body, hh, hleg, by omega, by rw [h3 hleg (by omega)]; rfl⟩))
    · obtain ⟨e, he, n1, n2⟩ := h1 hleg
      refine .inr (.inl ⟨t, v, l, body, hh, hleg, ?_⟩)
      rw [he]
      cases e <;> simp at n1 n2 ⊢

theorem opaqueFront_bad {b : Bytes} {t : Byte} {v l : Nat} {body : Bytes} (h : HasHeader b t v l body)
    (hn : ¬ LegalHeader t v l) : opaqueFront b = .bad := by
  obtain ⟨e, he, n1, n2⟩ := (opaque_header h).1 hn
  unfold opaqueFront
  rw [he]
  cases e <;> simp at n1 n2 ⊢

theorem opaqueFront_msg {b : Bytes} {t : Byte} {v l : Nat} {body : Bytes} (h : HasHeader b t v l body)
    (hn : LegalHeader t v l) (hl : l ≤ body.length) :
    opaqueFront b = .msg ⟨ContentType.ofU8 t, ProtocolVersion.ofU16 (UInt16.ofNat v), body.take l⟩ (5 + l) := by
  unfold opaqueFront
  rw [(opaque_header h).2.2 hn hl]; rfl

theorem HasHeader.length {b : Bytes} {t : Byte} {v l : Nat} {body : Bytes} (h : HasHeader b t v l body) :
    b.length = 5 + body.length := by
  rw [h.2.2]; simp; omega

theorem opaqueFront_stable : FrontStable opaqueFront where
  msg b m n h := by
    rcases opaqueFront_cases b with ⟨_, h'⟩ | ⟨t, v, l, body, _, _, h'⟩ | ⟨t, v, l, body, _, _, _, h'⟩ |
      ⟨t, v, l, body, hh, hleg, hle, h'⟩
    · rw [h] at h'; cases h'
    · rw [h] at h'; cases h'
    · rw [h] at h'; cases h'
    · rw [h] at h'
      injection h' with hm hn
      have := hh.length
      refine ⟨by omega, by omega, fun c => ?_⟩
      rw [opaqueFront_msg (hh.append c) hleg (by simp; omega), List.take_append_of_le_length hle, hm, hn]
  bad b h := by
    rcases opaqueFront_cases b with ⟨_, h'⟩ | ⟨t, v, l, body, hh, hleg, h'⟩ | ⟨t, v, l, body, _, _, _, h'⟩ |
      ⟨t, v, l, body, hh, hleg, hle, h'⟩
    · rw [h] at h'; cases h'
    · exact fun c => opaqueFront_bad (hh.append c) hleg
    · rw [h] at h'; cases h'
    · rw [h] at h'; cases h'

/-- An incomplete record leaves room in the buffer. -/
theorem opaqueFront_more_length {b : Bytes} (h : opaqueFront b = .more) : b.length < maxWireSize := by
  rcases opaqueFront_cases b with ⟨h', _⟩ | ⟨t, v, l, body, hh, hleg, h'⟩ | ⟨t, v, l, body, hh, hleg, hlt, _⟩ |
    ⟨t, v, l, body, hh, hleg, hle, h'⟩
  · exact Nat.lt_trans h' (by decide)
  · rw [h] at h'; cases h'
  · have := hh.length
    have := hleg.2.2.1
    have e : maxWireSize = 18437 := by decide
    omega
  · rw [h] at h'; cases h'

end Tlsn
