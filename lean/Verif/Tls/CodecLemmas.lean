import Verif.Tls.Codec

/-! # Lemmas about codecs -/

namespace Tlsn

/-- The reader stands in front of the bytes `bs`, which are the rest of its buffer. -/
def Reader.At (r : Reader) (bs : Bytes) : Prop := r.offs ≤ r.buf.length ∧ r.buf.drop r.offs = bs

theorem Reader.At.left {r : Reader} {bs : Bytes} (h : r.At bs) : r.left = bs.length := by
  rw [← h.2, List.length_drop]; rfl

theorem Reader.At.anyLeft {r : Reader} {bs : Bytes} (h : r.At bs) : r.anyLeft = !bs.isEmpty := by
  have := h.left
  unfold Reader.left at this
  unfold Reader.anyLeft
  cases bs with
  | nil => simp at this ⊢; omega
  | cons b bs => simp at this ⊢; omega

theorem Reader.init_at (bs : Bytes) : (Reader.init bs).At bs := ⟨Nat.zero_le _, rfl⟩

theorem Reader.at_mid (pre bs : Bytes) : (⟨pre ++ bs, pre.length⟩ : Reader).At bs := by
  simp [Reader.At]

theorem Reader.At.eq {r r' : Reader} {bs : Bytes} (h : r.At bs) (h' : r'.At bs) (hb : r.buf = r'.buf) : r = r' := by
  have h1 := congrArg List.length h.2
  have h2 := congrArg List.length h'.2
  simp only [List.length_drop] at h1 h2
  have := h.1
  have := h'.1
  cases r with
  | mk b o => cases r' with
    | mk b' o' =>
      simp only at *
      subst hb
      congr 1
      omega

/-- In front of `bs`, the read yields `x` and leaves `rest`. -/
def Yields {α : Type} (f : Rd α) (bs : Bytes) (x : α) (rest : Bytes) : Prop :=
  ∀ r : Reader, r.At bs → ∃ r', f r = some (x, r') ∧ r'.At rest ∧ r'.buf = r.buf

/-- Reading inverts encoding on the values satisfying `P`. -/
def Codec.Inverts {α : Type} (c : Codec α) (P : α → Prop) : Prop :=
  ∀ x, P x → ∀ rest, Yields c.read (c.encode x ++ rest) x rest

/-- A successful read has consumed the encoding of its result, which satisfies `P`. -/
def CanonRd {α : Type} (f : Rd α) (enc : α → Bytes) (P : α → Prop) : Prop :=
  ∀ (r r' : Reader) (x : α), r.offs ≤ r.buf.length → f r = some (x, r') →
    P x ∧ r'.buf = r.buf ∧ ∃ rest, r.At (enc x ++ rest) ∧ r'.At rest

theorem Yields.bind {α β : Type} {f : Rd α} {g : α → Rd β} {bs mid rest : Bytes} {x : α} {y : β}
    (hf : Yields f bs x mid) (hg : Yields (g x) mid y rest) : Yields (f >>= g) bs y rest := by
  intro r hr
  obtain ⟨r1, h1, h2, h3⟩ := hf r hr
  obtain ⟨r2, h4, h5, h6⟩ := hg r1 h2
  refine ⟨r2, ?_, h5, h6.trans h3⟩
  show (f r).bind (fun p => g p.1 p.2) = _
  rw [h1]
  exact h4

theorem Yields.pure {α : Type} (x : α) (bs : Bytes) : Yields (pure x : Rd α) bs x bs :=
  fun r hr => ⟨r, rfl, hr, rfl⟩

theorem Yields.lift {α : Type} (x : α) (bs : Bytes) : Yields (Rd.lift (some x)) bs x bs :=
  fun r hr => ⟨r, rfl, hr, rfl⟩

theorem yields_take (bs rest : Bytes) {n : Nat} (hn : bs.length = n) : Yields (Rd.take n) (bs ++ rest) bs rest := by
  intro r hr
  have hl := hr.left
  rw [List.length_append] at hl
  refine ⟨{ r with offs := r.offs + n }, ?_, ⟨?_, ?_⟩, rfl⟩
  · unfold Rd.take
    rw [if_neg (by omega), hr.2, ← hn, List.take_left]
  · have := hr.1
    unfold Reader.left at hl
    simp only
    omega
  · simp only
    rw [← List.drop_drop, hr.2, ← hn, List.drop_left]

theorem take_eq_some {n : Nat} {r r' : Reader} {bs : Bytes} (ho : r.offs ≤ r.buf.length)
    (h : Rd.take n r = some (bs, r')) : bs.length = n ∧ r'.buf = r.buf ∧ ∃ rest, r.At (bs ++ rest) ∧ r'.At rest := by
  unfold Rd.take at h
  by_cases hl : r.left < n
  · rw [if_pos hl] at h; cases h
  · rw [if_neg hl] at h
    simp only [Option.some.injEq, Prod.mk.injEq] at h
    obtain ⟨rfl, rfl⟩ := h
    unfold Reader.left at hl
    refine ⟨by simp; omega, rfl, (r.buf.drop r.offs).drop n, ⟨ho, by rw [List.take_append_drop]⟩, ⟨by simp; omega, ?_⟩⟩
    simp [List.drop_drop]

theorem bind_eq_some {α β : Type} {f : Rd α} {g : α → Rd β} {r r' : Reader} {y : β} :
    (f >>= g) r = some (y, r') ↔ ∃ x r1, f r = some (x, r1) ∧ g x r1 = some (y, r') := by
  show (f r).bind (fun p => g p.1 p.2) = _ ↔ _
  cases f r with
  | none => simp
  | some p =>
    obtain ⟨a, b⟩ := p
    constructor
    · intro h; exact ⟨a, b, rfl, h⟩
    · rintro ⟨x, r1, h1, h2⟩
      simp only [Option.some.injEq, Prod.mk.injEq] at h1
      obtain ⟨rfl, rfl⟩ := h1
      exact h2

theorem lift_eq_some {α : Type} {x : Option α} {r r' : Reader} {y : α} :
    Rd.lift x r = some (y, r') ↔ x = some y ∧ r = r' := by
  unfold Rd.lift
  cases x <;> simp

theorem pure_eq_some {α : Type} {x : α} {r r' : Reader} {y : α} :
    (pure x : Rd α) r = some (y, r') ↔ x = y ∧ r = r' := by
  show some (x, r) = some (y, r') ↔ _
  simp

/-- A canonical first part of a read. -/
theorem CanonRd.bind {α β : Type} {f : Rd α} {g : α → Rd β} {ef : α → Bytes} {eg : β → Bytes} {enc : β → Bytes}
    {P : α → Prop} {Q : β → Prop} (hf : CanonRd f ef P)
    (hg : ∀ x, P x → CanonRd (g x) eg fun y => Q y ∧ enc y = ef x ++ eg y) : CanonRd (f >>= g) enc Q := by
  intro r r' y ho h
  obtain ⟨x, r1, h1, h2⟩ := bind_eq_some.1 h
  obtain ⟨hp, hb, rest, ha, ha'⟩ := hf r r1 x ho h1
  obtain ⟨⟨hq, he⟩, hb2, rest2, hc, hc'⟩ := hg x hp r1 r' y ha'.1 h2
  refine ⟨hq, hb2.trans hb, rest2, ?_, hc'⟩
  have : rest = eg y ++ rest2 := by rw [← ha'.2, hc.2]
  rw [he, List.append_assoc, ← this]
  exact ha

theorem canon_pure {α : Type} (x : α) (enc : α → Bytes) (P : α → Prop) (he : enc x = []) (hp : P x) :
    CanonRd (pure x : Rd α) enc P := by
  intro r r' y ho h
  obtain ⟨rfl, rfl⟩ := pure_eq_some.1 h
  exact ⟨hp, rfl, r.buf.drop r.offs, by rw [he]; exact ⟨ho, rfl⟩, ⟨ho, rfl⟩⟩

theorem canon_take (n : Nat) : CanonRd (Rd.take n) id fun bs => bs.length = n :=
  fun _ _ _ ho h => take_eq_some ho h

theorem canon_lift {α : Type} (x : Option α) (enc : α → Bytes) (P : α → Prop)
    (h : ∀ y, x = some y → enc y = [] ∧ P y) : CanonRd (Rd.lift x) enc P := by
  intro r r' y ho hr
  obtain ⟨hx, rfl⟩ := lift_eq_some.1 hr
  obtain ⟨he, hp⟩ := h y hx
  exact ⟨hp, rfl, r.buf.drop r.offs, by rw [he]; exact ⟨ho, rfl⟩, ⟨ho, rfl⟩⟩

/-- A read of `n` bytes that are decoded. -/
theorem canon_fixed {α : Type} {n : Nat} {dec : Bytes → Option α} {enc : α → Bytes}
    (h : ∀ bs x, bs.length = n → dec bs = some x → enc x = bs) :
    CanonRd (do Rd.lift (dec (← Rd.take n))) enc fun _ => True := by
  refine CanonRd.bind (eg := fun _ => []) (canon_take n) fun bs hbs => canon_lift _ _ _ fun y hy => ⟨rfl, trivial, ?_⟩
  rw [h bs y hbs hy]; simp

theorem inverts_fixed {α : Type} {n : Nat} {dec : Bytes → Option α} {enc : α → Bytes} (P : α → Prop)
    (h : ∀ x, P x → (enc x).length = n ∧ dec (enc x) = some x) :
    Codec.Inverts ⟨enc, do Rd.lift (dec (← Rd.take n))⟩ P := by
  intro x hx rest
  obtain ⟨h1, h2⟩ := h x hx
  refine Yields.bind (yields_take (enc x) rest h1) ?_
  simp only [h2]
  exact Yields.lift x rest

theorem beNat_lt_of_length {bs : Bytes} {n : Nat} (h : bs.length = n) : beNat bs < 256 ^ n := h ▸ beNat_lt bs

theorem u8_inverts : codecU8.Inverts fun _ => True := inverts_fixed _ fun _ _ => ⟨rfl, rfl⟩

theorem u8_canon : CanonRd codecU8.read codecU8.encode fun _ => True :=
  canon_fixed fun bs x hl h => by
    match bs, hl with
    | [v], _ => simp only [decodeU8, Option.some.injEq] at h; subst h; rfl

theorem u16_inverts : codecU16.Inverts fun _ => True :=
  inverts_fixed _ fun x _ => ⟨by simp, by
    simp only [decodeU16, beBytes_length, if_true, beNat_beBytes, Option.some.injEq]
    apply UInt16.toNat_inj.1
    have := x.toNat_lt
    simp⟩

theorem u16_canon : CanonRd codecU16.read codecU16.encode fun _ => True :=
  canon_fixed fun bs x hl h => by
    simp only [decodeU16, hl, if_true, Option.some.injEq] at h
    subst h
    have := beNat_lt_of_length hl
    simp only [codecU16, UInt16.toNat_ofNat']
    rw [Nat.mod_eq_of_lt (by simpa using this)]
    conv => rhs; rw [← beBytes_beNat bs, hl]

theorem u32_inverts : codecU32.Inverts fun _ => True :=
  inverts_fixed _ fun x _ => ⟨by simp, by
    simp only [decodeU32, beBytes_length, if_true, beNat_beBytes, Option.some.injEq]
    apply UInt32.toNat_inj.1
    have := x.toNat_lt
    simp⟩

theorem u32_canon : CanonRd codecU32.read codecU32.encode fun _ => True :=
  canon_fixed fun bs x hl h => by
    simp only [decodeU32, hl, if_true, Option.some.injEq] at h
    subst h
    have := beNat_lt_of_length hl
    simp only [codecU32, UInt32.toNat_ofNat']
    rw [Nat.mod_eq_of_lt (by simpa using this)]
    conv => rhs; rw [← beBytes_beNat bs, hl]

theorem u64_inverts : codecU64.Inverts fun _ => True :=
  inverts_fixed _ fun x _ => ⟨by simp, by
    simp only [decodeU64, beBytes_length, if_true, beNat_beBytes, Option.some.injEq]
    apply UInt64.toNat_inj.1
    have := x.toNat_lt
    simp⟩

theorem u64_canon : CanonRd codecU64.read codecU64.encode fun _ => True :=
  canon_fixed fun bs x hl h => by
    simp only [decodeU64, hl, if_true, Option.some.injEq] at h
    subst h
    have := beNat_lt_of_length hl
    simp only [codecU64, UInt64.toNat_ofNat']
    rw [Nat.mod_eq_of_lt (by simpa using this)]
    conv => rhs; rw [← beBytes_beNat bs, hl]

theorem drop_beBytes_succ (k n : Nat) : (beBytes (k + 1) n).drop 1 = beBytes k n := rfl

theorem u24_decode_eq {bs : Bytes} (h : bs.length = 3) : U24.decode bs = some ⟨UInt32.ofNat (beNat bs)⟩ := by
  match bs, h with
  | [a, b, c], _ => simp [U24.decode, beNat]

theorem u24_inverts : codecU24.Inverts fun v => v.val.toNat < 2 ^ 24 :=
  inverts_fixed _ fun x hx => ⟨by simp, by
    rw [drop_beBytes_succ, u24_decode_eq (by simp), beNat_beBytes, Nat.mod_eq_of_lt (by simpa using hx)]
    simp⟩

theorem u24_canon : CanonRd codecU24.read codecU24.encode fun v => v.val.toNat < 2 ^ 24 := by
  have key : ∀ (bs : Bytes) (x : U24), bs.length = 3 → U24.decode bs = some x →
      codecU24.encode x = bs ∧ x.val.toNat < 2 ^ 24 := by
    intro bs x hl h
    rw [u24_decode_eq hl] at h
    simp only [Option.some.injEq] at h
    subst h
    have := beNat_lt_of_length hl
    have h1 : (UInt32.ofNat (beNat bs)).toNat = beNat bs := by
      rw [UInt32.toNat_ofNat']; exact Nat.mod_eq_of_lt (by omega)
    refine ⟨?_, by simp only [h1]; omega⟩
    simp only [codecU24, h1, drop_beBytes_succ]
    conv => rhs; rw [← beBytes_beNat bs, hl]
  refine CanonRd.bind (eg := fun _ => []) (canon_take 3) fun bs hbs => canon_lift _ _ _ fun y hy => ⟨rfl, ?_⟩
  obtain ⟨h1, h2⟩ := key bs y hbs hy
  exact ⟨h2, by rw [h1]; simp⟩

theorem yields_sub (bs rest : Bytes) {n : Nat} (hn : bs.length = n) :
    Yields (Rd.sub n) (bs ++ rest) (Reader.init bs) rest :=
  Yields.bind (yields_take bs rest hn) (Yields.pure _ _)

theorem yields_body (bs rest : Bytes) {n : Nat} (hn : bs.length = n) : Yields (readBody n) (bs ++ rest) bs rest :=
  Yields.bind (yields_sub bs rest hn) (Yields.pure _ _)

theorem canon_sub (n : Nat) : CanonRd (Rd.sub n) (fun s => s.buf) fun s => s.buf.length = n ∧ s = Reader.init s.buf :=
  CanonRd.bind (eg := fun _ => []) (canon_take n) fun bs hbs => canon_pure _ _ _ rfl ⟨⟨hbs, rfl⟩, by simp [Reader.init]⟩

theorem canon_body (n : Nat) : CanonRd (readBody n) id fun b => b.length = n :=
  CanonRd.bind (eg := fun _ => []) (canon_sub n) fun s hs => canon_pure _ _ _ rfl ⟨by
    rw [hs.2]; exact hs.1, by rw [hs.2]; simp [Reader.init]⟩

theorem payloadU8_inverts : codecPayloadU8.Inverts fun v => v.length < 2 ^ 8 := by
  intro v hv rest
  simp only [codecPayloadU8, List.append_assoc]
  refine Yields.bind (u8_inverts _ trivial _) (yields_body v rest ?_)
  rw [UInt8.toNat_ofNat']; exact (Nat.mod_eq_of_lt hv).symm

theorem payloadU16_inverts : codecPayloadU16.Inverts fun v => v.length < 2 ^ 16 := by
  intro v hv rest
  simp only [codecPayloadU16, List.append_assoc]
  refine Yields.bind (u16_inverts _ trivial _) (yields_body v rest ?_)
  rw [UInt16.toNat_ofNat']; exact (Nat.mod_eq_of_lt hv).symm

theorem payloadU24_inverts : codecPayloadU24.Inverts fun v => v.length < 2 ^ 24 := by
  intro v hv rest
  have h1 : (UInt32.ofNat v.length).toNat = v.length := by
    rw [UInt32.toNat_ofNat']; exact Nat.mod_eq_of_lt (by omega)
  simp only [codecPayloadU24, List.append_assoc]
  refine Yields.bind (u24_inverts _ (by simp only [h1]; exact hv) _) (yields_body v rest h1.symm)

theorem payloadU8_canon : CanonRd codecPayloadU8.read codecPayloadU8.encode fun v => v.length < 2 ^ 8 := by
  refine CanonRd.bind (eg := id) u8_canon fun x _ => ?_
  intro r r' y ho h
  obtain ⟨h1, h2⟩ := canon_body x.toNat r r' y ho h
  refine ⟨⟨h1 ▸ x.toNat_lt, ?_⟩, h2⟩
  simp only [codecPayloadU8, h1, UInt8.ofNat_toNat, id]

theorem payloadU16_canon : CanonRd codecPayloadU16.read codecPayloadU16.encode fun v => v.length < 2 ^ 16 := by
  refine CanonRd.bind (eg := id) u16_canon fun x _ => ?_
  intro r r' y ho h
  obtain ⟨h1, h2⟩ := canon_body x.toNat r r' y ho h
  refine ⟨⟨h1 ▸ x.toNat_lt, ?_⟩, h2⟩
  simp only [codecPayloadU16, h1, UInt16.ofNat_toNat, id]

theorem payloadU24_canon : CanonRd codecPayloadU24.read codecPayloadU24.encode fun v => v.length < 2 ^ 24 := by
  refine CanonRd.bind (eg := id) u24_canon fun x hx => ?_
  intro r r' y ho h
  obtain ⟨h1, h2⟩ := canon_body x.val.toNat r r' y ho h
  refine ⟨⟨h1 ▸ hx, ?_⟩, h2⟩
  simp only [codecPayloadU24, h1, UInt32.ofNat_toNat, id]

/-! ### Vectors -/

theorem readItems_encode {α : Type} (c : Codec α) (P : α → Prop) (hc : c.Inverts P)
    (hpos : ∀ x, P x → c.encode x ≠ []) (items : List α) (hp : ∀ x ∈ items, P x) (n : Nat) (r : Reader)
    (hr : r.At (encodeAll c items)) (hn : (encodeAll c items).length ≤ n) : readItems c n r = some items := by
  induction items generalizing n r with
  | nil =>
    have := hr.anyLeft
    simp [encodeAll] at this
    cases n <;> simp [readItems, this]
  | cons x items ih =>
    have hx := hpos x (hp x (by simp))
    have he : encodeAll c (x :: items) = c.encode x ++ encodeAll c items := by simp [encodeAll]
    rw [he] at hr hn
    have hl : 0 < (c.encode x).length := List.length_pos_iff.2 hx
    rw [List.length_append] at hn
    obtain ⟨m, rfl⟩ : ∃ m, n = m + 1 := ⟨n - 1, by omega⟩
    have ha : r.anyLeft = true := by
      rw [hr.anyLeft]
      cases h : c.encode x with
      | nil => exact absurd h hx
      | cons a b => simp
    obtain ⟨r', h1, h2, -⟩ := hc x (hp x (by simp)) _ r hr
    simp only [readItems, ha, if_true, h1, ih (fun y hy => hp y (by simp [hy])) m r' h2 (by omega), Option.map_some]

theorem readItems_canon {α : Type} (c : Codec α) (P : α → Prop) (hc : CanonRd c.read c.encode P) (n : Nat) (r : Reader)
    (ho : r.offs ≤ r.buf.length) (items : List α) (h : readItems c n r = some items) :
    r.At (encodeAll c items) ∧ ∀ x ∈ items, P x := by
  induction n generalizing r items with
  | zero =>
    simp only [readItems] at h
    by_cases ha : r.anyLeft
    · simp [ha] at h
    · simp only [ha, Bool.false_eq_true, if_false, Option.some.injEq] at h
      subst h
      refine ⟨⟨ho, ?_⟩, by simp⟩
      simp [Reader.anyLeft] at ha
      simp [encodeAll, ha]
  | succ n ih =>
    simp only [readItems] at h
    by_cases ha : r.anyLeft
    · simp only [ha, if_true] at h
      cases hr : c.read r with
      | none => rw [hr] at h; cases h
      | some p =>
        obtain ⟨x, r1⟩ := p
        rw [hr] at h
        simp only [Option.map_eq_some_iff] at h
        obtain ⟨ys, hy, rfl⟩ := h
        obtain ⟨hp, hb, rest, h1, h2⟩ := hc r r1 x ho hr
        obtain ⟨h3, h4⟩ := ih r1 h2.1 ys hy
        have : rest = encodeAll c ys := by rw [← h2.2, h3.2]
        refine ⟨?_, by simpa [hp] using h4⟩
        rw [this] at h1
        simpa [encodeAll] using h1
    · simp only [ha, Bool.false_eq_true, if_false, Option.some.injEq] at h
      subst h
      refine ⟨⟨ho, ?_⟩, by simp⟩
      simp [Reader.anyLeft] at ha
      simp [encodeAll, ha]

theorem vecU8_inverts {α : Type} (c : Codec α) (P : α → Prop) (hc : c.Inverts P)
    (hpos : ∀ x, P x → c.encode x ≠ []) :
    Codec.Inverts ⟨encodeVecU8 c, readVecU8 c⟩ fun l => (∀ x ∈ l, P x) ∧ (encodeAll c l).length < 2 ^ 8 := by
  intro l hl rest
  refine Yields.bind (mid := encodeAll c l ++ rest) (x := UInt8.ofNat (encodeAll c l).length)
    (u8_inverts _ trivial _) ?_
  refine Yields.bind (yields_sub (encodeAll c l) rest ?_) ?_
  · rw [UInt8.toNat_ofNat']; exact (Nat.mod_eq_of_lt hl.2).symm
  · rw [readItems_encode c P hc hpos l hl.1 _ _ (Reader.init_at _) (Nat.le_of_eq (Reader.init_at _).left.symm)]
    exact Yields.lift _ _

theorem vecU16_inverts {α : Type} (c : Codec α) (P : α → Prop) (hc : c.Inverts P)
    (hpos : ∀ x, P x → c.encode x ≠ []) :
    Codec.Inverts ⟨encodeVecU16 c, readVecU16 c⟩ fun l => (∀ x ∈ l, P x) ∧ (encodeAll c l).length < 2 ^ 16 := by
  intro l hl rest
  simp only [encodeVecU16, List.append_assoc]
  refine Yields.bind (u16_inverts _ trivial _) ?_
  refine Yields.bind (yields_sub (encodeAll c l) rest ?_) ?_
  · rw [UInt16.toNat_ofNat']; exact (Nat.mod_eq_of_lt hl.2).symm
  · rw [readItems_encode c P hc hpos l hl.1 _ _ (Reader.init_at _) (Nat.le_of_eq (Reader.init_at _).left.symm)]
    exact Yields.lift _ _

theorem vecU24_inverts {α : Type} (c : Codec α) (P : α → Prop) (hc : c.Inverts P)
    (hpos : ∀ x, P x → c.encode x ≠ []) (maxBytes : Nat) :
    Codec.Inverts ⟨encodeVecU24 c, readVecU24Limited c maxBytes⟩
      fun l => (∀ x ∈ l, P x) ∧ (encodeAll c l).length < 2 ^ 24 ∧ (encodeAll c l).length ≤ maxBytes := by
  intro l hl rest
  have h1 : (UInt32.ofNat (encodeAll c l).length).toNat = (encodeAll c l).length := by
    rw [UInt32.toNat_ofNat']; exact Nat.mod_eq_of_lt (by omega)
  simp only [encodeVecU24, List.append_assoc]
  refine Yields.bind (x := ⟨UInt32.ofNat (encodeAll c l).length⟩) (u24_inverts _ (by
    show (UInt32.ofNat (encodeAll c l).length).toNat < 2 ^ 24
    rw [h1]; exact hl.2.1) _) ?_
  rw [if_neg (by simp only [h1]; omega)]
  refine Yields.bind (yields_sub (encodeAll c l) rest h1.symm) ?_
  rw [readItems_encode c P hc hpos l hl.1 _ _ (Reader.init_at _) (Nat.le_of_eq (Reader.init_at _).left.symm)]
  exact Yields.lift _ _

theorem items_canon {α : Type} (c : Codec α) (P : α → Prop) (hc : CanonRd c.read c.encode P) (n : Nat) :
    CanonRd (do let sub ← Rd.sub n; Rd.lift (readItems c sub.left sub)) (encodeAll c)
      fun l => (∀ x ∈ l, P x) ∧ (encodeAll c l).length = n := by
  refine CanonRd.bind (eg := fun _ => []) (canon_sub n) fun s hs => ?_
  intro r r' y ho h
  obtain ⟨hx, rfl⟩ := lift_eq_some.1 h
  rw [hs.2] at hx
  obtain ⟨h1, h2⟩ := readItems_canon c P hc _ (Reader.init s.buf) (Nat.zero_le _) y hx
  have he : encodeAll c y = s.buf := by rw [← h1.2]; rfl
  exact ⟨⟨⟨h2, by rw [he]; exact hs.1⟩, by rw [he]; simp⟩, rfl, r.buf.drop r.offs, ⟨ho, by simp⟩, ⟨ho, rfl⟩⟩

theorem vecU8_canon {α : Type} (c : Codec α) (P : α → Prop) (hc : CanonRd c.read c.encode P) :
    CanonRd (readVecU8 c) (encodeVecU8 c) fun l => (∀ x ∈ l, P x) ∧ (encodeAll c l).length < 2 ^ 8 := by
  refine CanonRd.bind (eg := encodeAll c) u8_canon fun n _ => ?_
  intro r r' y ho h
  obtain ⟨⟨h1, h2⟩, h3⟩ := items_canon c P hc n.toNat r r' y ho h
  refine ⟨⟨⟨h1, h2 ▸ n.toNat_lt⟩, ?_⟩, h3⟩
  simp only [encodeVecU8, h2, UInt8.ofNat_toNat]
  rfl

theorem vecU16_canon {α : Type} (c : Codec α) (P : α → Prop) (hc : CanonRd c.read c.encode P) :
    CanonRd (readVecU16 c) (encodeVecU16 c) fun l => (∀ x ∈ l, P x) ∧ (encodeAll c l).length < 2 ^ 16 := by
  refine CanonRd.bind (eg := encodeAll c) u16_canon fun n _ => ?_
  intro r r' y ho h
  obtain ⟨⟨h1, h2⟩, h3⟩ := items_canon c P hc n.toNat r r' y ho h
  refine ⟨⟨⟨h1, h2 ▸ n.toNat_lt⟩, ?_⟩, h3⟩
  simp only [encodeVecU16, h2, UInt16.ofNat_toNat]
  rfl

theorem vecU24_canon {α : Type} (c : Codec α) (P : α → Prop) (hc : CanonRd c.read c.encode P) (maxBytes : Nat) :
    CanonRd (readVecU24Limited c maxBytes) (encodeVecU24 c)
      fun l => (∀ x ∈ l, P x) ∧ (encodeAll c l).length < 2 ^ 24 ∧ (encodeAll c l).length ≤ maxBytes := by
  refine CanonRd.bind (eg := encodeAll c) u24_canon fun n hn => ?_
  by_cases hm : n.val.toNat > maxBytes
  · rw [if_pos hm]
    intro r r' y ho h
    obtain ⟨hx, -⟩ := lift_eq_some.1 h
    cases hx
  · rw [if_neg hm]
    intro r r' y ho h
    obtain ⟨⟨h1, h2⟩, h3⟩ := items_canon c P hc n.val.toNat r r' y ho h
    refine ⟨⟨⟨h1, h2 ▸ hn, by omega⟩, ?_⟩, h3⟩
    simp only [encodeVecU24, h2, UInt32.ofNat_toNat]
    rfl

/-! ### Enumerations -/

theorem contentType_canon : CanonRd codecContentType.read codecContentType.encode fun t =>
    ContentType.ofU8 t.getU8 = t :=
  CanonRd.bind (eg := fun _ => []) u8_canon fun b _ => canon_pure _ _ _ rfl ⟨by rw [ContentType.getU8_ofU8], by
    simp [codecContentType, ContentType.getU8_ofU8]⟩

theorem contentType_inverts : codecContentType.Inverts fun t => ContentType.ofU8 t.getU8 = t := by
  intro t ht rest
  refine Yields.bind (u8_inverts t.getU8 trivial rest) ?_
  rw [ht]
  exact Yields.pure t rest

theorem version_canon : CanonRd codecVersion.read codecVersion.encode fun t =>
    ProtocolVersion.ofU16 t.getU16 = t :=
  CanonRd.bind (eg := fun _ => []) u16_canon fun b _ => canon_pure _ _ _ rfl ⟨by rw [ProtocolVersion.getU16_ofU16], by
    simp [codecVersion, ProtocolVersion.getU16_ofU16]⟩

theorem version_inverts : codecVersion.Inverts fun t => ProtocolVersion.ofU16 t.getU16 = t := by
  intro t ht rest
  refine Yields.bind (u16_inverts t.getU16 trivial rest) ?_
  rw [ht]
  exact Yields.pure t rest

end Tlsn
