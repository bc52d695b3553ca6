import Verif.TlsTranscript.Lemmas

/-! # Lemmas about the records of a TLS transcript -/

namespace Tlsn

theorem validateSeq_iff (l : List Record) : validateSeq l = .ok () ↔ l.Pairwise fun a b => a.seq < b.seq := by
  induction l with
  | nil => simp [validateSeq]
  | cons a l ih =>
    cases l with
    | nil => simp [validateSeq]
    | cons b l =>
      unfold validateSeq
      by_cases h : b.seq ≤ a.seq
      · rw [if_pos h]
        simp only [List.pairwise_cons, reduceCtorEq, false_iff, not_and]
        intro h1
        have := h1 b (by simp)
        omega
      · rw [if_neg h, ih]
        constructor
        · intro hp
          refine List.pairwise_cons.2 ⟨?_, hp⟩
          intro x hx
          rcases List.mem_cons.1 hx with rfl | hx
          · omega
          · have := (List.pairwise_cons.1 hp).1 x hx
            omega
        · intro hp
          exact (List.pairwise_cons.1 hp).2

theorem validateSeq_cases (l : List Record) : validateSeq l = .ok () ∨ validateSeq l = .err .validation := by
  induction l with
  | nil => exact .inl rfl
  | cons a l ih =>
    cases l with
    | nil => exact .inl rfl
    | cons b l =>
      unfold validateSeq
      by_cases h : b.seq ≤ a.seq
      · rw [if_pos h]; exact .inr rfl
      · rw [if_neg h]; exact ih

theorem finished_fits {dnsOk : Bytes → Bool} {m : HandshakeMessage} (h : m.Fits dnsOk .tls12) :
    m.isFinished = true ↔ m.raw.1 = 0x14 := by
  obtain ⟨hb, -⟩ := h
  obtain ⟨typ, p⟩ := m
  cases p <;> simp only [HandshakeMessage.BodyFits, handshakeTypes] at hb <;>
    simp only [HandshakeMessage.isFinished, HandshakeMessage.raw, HandshakeMessage.wireType, Bool.false_eq_true, false_iff,
      true_iff] <;>
    first
    | (obtain ⟨rfl, -⟩ := hb; decide)
    | (obtain rfl := hb; decide)
    | (simp only [List.mem_cons, List.not_mem_nil, or_false, not_or] at hb
       by_cases h6 : typ = 0x06
       · rw [if_pos h6]; decide
       · rw [if_neg h6]; exact hb.1.2.2.2.2.2.2.2.2.2.2.2.2.1)

theorem finished_read (dnsOk : Bytes → Bool) (payload : Bytes) :
    (∃ m r, readHandshakeMessage dnsOk .tls12 (Reader.init payload) = some (m, r) ∧ m.isFinished = true) ↔
      IsFinishedMessage payload := by
  have law := law_handshakeMessage dnsOk .tls12
  constructor
  · rintro ⟨m, r, h1, h2⟩
    obtain ⟨hf, -, rest, ha, -⟩ := law.canon _ _ _ (Nat.zero_le _) h1
    have ht := (finished_fits hf).1 h2
    refine ⟨m.raw.2, rest, hf.2, ?_⟩
    have : payload = m.encode ++ rest := ha.2
    rw [this, encode_eq_raw hf, ← ht]
  · rintro ⟨vd, more, hl, rfl⟩
    have hf : (HandshakeMessage.mk 0x14 (.finished vd)).Fits dnsOk .tls12 := ⟨rfl, hl⟩
    obtain ⟨r', h1, -, -⟩ := law.inv _ hf more (Reader.init (hsBytes (0x14, vd) ++ more)) (by
      show Reader.At _ (HandshakeMessage.encode _ ++ more)
      rw [encode_eq_raw hf]
      exact Reader.init_at _)
    exact ⟨_, r', h1, rfl⟩

theorem validateFinished_iff (env : TtEnv) (r : Record) :
    validateFinishedRecord env r = .ok () ↔ r.typ = .handshake ∧ r.seq = 0 ∧
      ∀ p, r.plaintext = some p → IsFinishedMessage p := by
  unfold validateFinishedRecord
  by_cases h1 : r.typ = .handshake
  · by_cases h2 : r.seq = 0
    · rw [if_neg (by simp [h1]), if_neg (by simp [h2])]
      cases hp : r.plaintext with
      | none => simp [h1, h2]
      | some p =>
        have := finished_read env.dnsOk p
        simp only [h1, h2, true_and, Option.some.injEq, forall_eq']
        rw [← this]
        cases hr : readHandshakeMessage env.dnsOk .tls12 (Reader.init p) with
        | none => simp
        | some q =>
          obtain ⟨m, r'⟩ := q
          by_cases hm : m.isFinished = true
          · simp [hm]
          · simp [hm]
    · rw [if_neg (by simp [h1]), if_pos h2]; simp [h2]
  · rw [if_pos h1]; simp [h1]

theorem validateFinished_cases (env : TtEnv) (r : Record) :
    validateFinishedRecord env r = .ok () ∨ validateFinishedRecord env r = .err .validation := by
  unfold validateFinishedRecord
  split
  · exact .inr rfl
  · split
    · exact .inr rfl
    · split
      · exact .inl rfl
      · split
        · exact .inr rfl
        · split
          · exact .inl rfl
          · exact .inr rfl

/-! ### Encrypted records -/

theorem split_encrypts {seq : Nat} {m : OpaqueMessage} {r : Record} (h : splitIntoRecord seq m.payload m.typ = .ok r) :
    Encrypts m seq r ∧ r.plaintext = none := by
  unfold splitIntoRecord at h
  split at h
  · cases h
  · obtain rfl := Outcome.ok.inj h
    refine ⟨⟨rfl, rfl, by simp; omega, _, rfl, by simp; omega, ?_⟩, rfl⟩
    simp only
    have h1 : m.payload.take 8 = (m.payload.take (m.payload.length - 16)).take 8 := by
      rw [List.take_take]; congr 1; omega
    rw [h1, List.take_append_drop, List.take_append_drop]

theorem split_cases (seq : Nat) (payload : Bytes) (typ : ContentType) :
    (24 ≤ payload.length ∧ ∃ r, splitIntoRecord seq payload typ = .ok r) ∨
      (payload.length < 24 ∧ splitIntoRecord seq payload typ = .err .parse) := by
  unfold splitIntoRecord
  by_cases h : payload.length < 8 + 16
  · rw [if_pos h]; exact .inr ⟨by omega, rfl⟩
  · rw [if_neg h]; exact .inl ⟨by omega, _, rfl⟩

theorem encrypts_length {m : OpaqueMessage} {seq : Nat} {r : Record} (h : Encrypts m seq r) :
    m.payload.length = 24 + r.ciphertext.length := by
  obtain ⟨-, -, h1, tag, -, h2, h3⟩ := h
  rw [h3]
  simp only [List.length_append, h1, h2]
  omega

theorem encrypts_unique {m : OpaqueMessage} {seq : Nat} {r r' : Record} (h : Encrypts m seq r) (h' : Encrypts m seq r')
    (hp : r.plaintext = r'.plaintext) : r = r' := by
  have hl := encrypts_length h
  have hl' := encrypts_length h'
  obtain ⟨a1, a2, a3, tag, a4, a5, a6⟩ := h
  obtain ⟨b1, b2, b3, tag', b4, b5, b6⟩ := h'
  rw [a6, List.append_assoc, List.append_assoc] at b6
  obtain ⟨e1, e2⟩ := List.append_inj b6 (by omega)
  obtain ⟨e3, e4⟩ := List.append_inj e2 (by omega)
  cases r; cases r'
  simp only at *
  subst a1 b1 e1 e3 e4 hp
  simp [a2, b2, a4, b4]

/-- The encrypted length of the application data in records on the wire. -/
def wireAppLength (l : List OpaqueMessage) : Nat :=
  ((l.filter (·.typ = .applicationData)).map (·.payload.length - 24)).sum

/-- What the loop over the records yields. -/
structure RestOk (app : Option Bytes) (seq consumed : Nat) (ms : List OpaqueMessage) (rs : List Record) : Prop where
  len : rs.length = ms.length
  enc : ∀ (i : Nat) (m : OpaqueMessage) (r : Record), ms[i]? = some m → rs[i]? = some r → Encrypts m (seq + i) r
  other : ∀ r ∈ rs, r.typ ≠ .applicationData → r.plaintext = none
  none : app = none → ∀ r ∈ rs, r.plaintext = none
  app : ∀ a, app = some a → ∀ (i : Nat) (r : Record), rs[i]? = some r → r.typ = .applicationData →
    r.plaintext = some ((a.drop (consumed + appLength (rs.take i))).take r.ciphertext.length)

theorem appData_nil : AppData [] [] := ⟨[], rfl, rfl⟩

theorem appData_cons_other {r : Record} {rs : List Record} {d : Bytes} (h : r.typ ≠ .applicationData) :
    AppData (r :: rs) d ↔ AppData rs d := by
  unfold AppData
  rw [List.filter_cons_of_neg (by simp [h])]

theorem appData_cons_app {r : Record} {rs : List Record} {d : Bytes} (h : r.typ = .applicationData) :
    AppData (r :: rs) d ↔ ∃ p rest, r.plaintext = some p ∧ AppData rs rest ∧ d = p ++ rest := by
  unfold AppData
  rw [List.filter_cons_of_pos (by simp [h])]
  constructor
  · rintro ⟨ps, h1, h2⟩
    cases ps with
    | nil => simp at h1
    | cons p ps =>
      simp only [List.map_cons, List.cons.injEq] at h1
      exact ⟨p, ps.flatten, h1.1, ⟨ps, h1.2, rfl⟩, h2⟩
  · rintro ⟨p, rest, h1, ⟨ps, h2, rfl⟩, h3⟩
    exact ⟨p :: ps, by simp [h1, h2], by simp [h3]⟩

theorem appLength_cons_other {r : Record} {rs : List Record} (h : r.typ ≠ .applicationData) :
    appLength (r :: rs) = appLength rs := by
  unfold appLength
  rw [List.filter_cons_of_neg (by simp [h])]

theorem appLength_cons_app {r : Record} {rs : List Record} (h : r.typ = .applicationData) :
    appLength (r :: rs) = r.ciphertext.length + appLength rs := by
  unfold appLength
  rw [List.filter_cons_of_pos (by simp [h])]
  simp

theorem wireAppLength_cons (m : OpaqueMessage) (ms : List OpaqueMessage) :
    wireAppLength (m :: ms) = (if m.typ = .applicationData then m.payload.length - 24 else 0) + wireAppLength ms := by
  unfold wireAppLength
  by_cases h : m.typ = .applicationData
  · rw [List.filter_cons_of_pos (by simp [h]), if_pos h]; simp
  · rw [List.filter_cons_of_neg (by simp [h]), if_neg h]; simp

theorem take_add_drop (l : Bytes) (a b : Nat) : l.take a ++ (l.drop a).take b = l.take (a + b) := by
  rw [List.take_add]

theorem parseRest_ok (app : Option Bytes) (seq consumed : Nat) (ms : List OpaqueMessage) (rs : List Record)
    (h : parseRest app seq consumed ms = .ok rs) : RestOk app seq consumed ms rs := by
  induction ms generalizing seq consumed rs with
  | nil =>
    obtain rfl := Outcome.ok.inj h
    refine ⟨rfl, by simp, by simp, by simp, ?_⟩
    intro a ha
    simp
  | cons m ms ih =>
    simp only [parseRest, Outcome.bind_eq_ok, Outcome.ok.injEq] at h
    obtain ⟨r, h1, ⟨r', c'⟩, h2, rs', h3, rfl⟩ := h
    obtain ⟨he, hn⟩ := split_encrypts h1
    have hi := ih _ _ _ h3
    simp only at hi ⊢
    -- the record with its plaintext
    have hr' : Encrypts m seq r' ∧ r'.typ = r.typ ∧ r'.ciphertext = r.ciphertext := by
      unfold addPlaintext at h2
      cases app with
      | none =>
        obtain ⟨rfl, -⟩ := Prod.mk.inj (Outcome.ok.inj h2)
        exact ⟨he, rfl, rfl⟩
      | some a =>
        simp only at h2
        split at h2
        · split at h2
          · cases h2
          · split at h2
            · obtain ⟨rfl, -⟩ := Prod.mk.inj (Outcome.ok.inj h2)
              exact ⟨⟨he.seq, he.typ, he.nonce, he.tag⟩, rfl, rfl⟩
            · cases h2
        · obtain ⟨rfl, -⟩ := Prod.mk.inj (Outcome.ok.inj h2)
          exact ⟨he, rfl, rfl⟩
    refine ⟨by simp [hi.len], ?_, ?_, ?_, ?_⟩
    · intro i m' r'' hm hr
      cases i with
      | zero =>
        simp only [List.getElem?_cons_zero, Option.some.injEq] at hm hr
        subst hm hr
        exact hr'.1
      | succ i =>
        simp only [List.getElem?_cons_succ] at hm hr
        have := hi.enc i m' r'' hm hr
        rwa [show seq + (i + 1) = seq + 1 + i by omega]
    · intro x hx hxt
      rcases List.mem_cons.1 hx with rfl | hx
      · unfold addPlaintext at h2
        cases app with
        | none =>
          obtain ⟨rfl, -⟩ := Prod.mk.inj (Outcome.ok.inj h2)
          exact hn
        | some a =>
          simp only at h2
          rw [if_neg (by rw [← hr'.2.1]; exact hxt)] at h2
          obtain ⟨rfl, -⟩ := Prod.mk.inj (Outcome.ok.inj h2)
          exact hn
      · exact hi.other x hx hxt
    · intro ha x hx
      rcases List.mem_cons.1 hx with rfl | hx
      · subst ha
        obtain ⟨rfl, -⟩ := Prod.mk.inj (Outcome.ok.inj h2)
        exact hn
      · exact hi.none ha x hx
    · intro a ha i x hx hxt
      subst ha
      have hia := hi.app a rfl
      by_cases ht : r.typ = .applicationData
      · simp only [addPlaintext, if_pos ht] at h2
        split at h2
        · cases h2
        · split at h2
          · rename_i hc hlen
            obtain ⟨rfl, rfl⟩ := Prod.mk.inj (Outcome.ok.inj h2)
            cases i with
            | zero =>
              simp only [List.getElem?_cons_zero, Option.some.injEq] at hx
              subst hx
              simp [appLength]
            | succ i =>
              simp only [List.getElem?_cons_succ] at hx
              rw [hia i x hx hxt, List.take_succ_cons, appLength_cons_app (by exact ht)]
              simp only
              rw [Nat.add_assoc]
          · cases h2
      · simp only [addPlaintext, if_neg ht] at h2
        obtain ⟨rfl, rfl⟩ := Prod.mk.inj (Outcome.ok.inj h2)
        cases i with
        | zero =>
          simp only [List.getElem?_cons_zero, Option.some.injEq] at hx
          subst hx
          exact absurd hxt ht
        | succ i =>
          simp only [List.getElem?_cons_succ] at hx
          rw [hia i x hx hxt, List.take_succ_cons, appLength_cons_other ht]

/-- The loop fails only if a record is too short or there is not enough application data. -/
theorem parseRest_cases (app : Option Bytes) (seq consumed : Nat) (ms : List OpaqueMessage)
    (hc : ∀ a, app = some a → consumed ≤ a.length) :
    ((∀ m ∈ ms, 24 ≤ m.payload.length) ∧ (∀ a, app = some a → consumed + wireAppLength ms ≤ a.length) ∧
      ∃ rs, parseRest app seq consumed ms = .ok rs) ∨
    (¬((∀ m ∈ ms, 24 ≤ m.payload.length) ∧ ∀ a, app = some a → consumed + wireAppLength ms ≤ a.length) ∧
      parseRest app seq consumed ms = .err .parse) := by
  induction ms generalizing seq consumed with
  | nil => exact .inl ⟨by simp, by simpa [wireAppLength] using hc, [], rfl⟩
  | cons m ms ih =>
    rcases split_cases seq m.payload m.typ with ⟨hl, r, hr⟩ | ⟨hl, hr⟩
    · have hw := wireAppLength_cons m ms
      obtain ⟨he, hn⟩ := split_encrypts hr
      have hlen := encrypts_length he
      by_cases happ : (∃ a, app = some a) ∧ m.typ = .applicationData
      · obtain ⟨⟨a, rfl⟩, ht⟩ := happ
        have hc' := hc a rfl
        have ht' : r.typ = .applicationData := by rw [he.typ, ht]
        rw [if_pos ht] at hw
        by_cases hen : consumed + r.ciphertext.length ≤ a.length
        · have h2 : addPlaintext (some a) consumed r = .ok
              ({ r with plaintext := some ((a.drop consumed).take r.ciphertext.length) },
                consumed + r.ciphertext.length) := by
            simp only [addPlaintext, if_pos ht']
            rw [if_neg (by omega), if_pos (by simp; omega)]
          rcases ih (seq + 1) (consumed + r.ciphertext.length) (by rintro _ ⟨⟩; exact hen) with ⟨h3, h4, rs, h5⟩ | ⟨h3, h4⟩
          · refine .inl ⟨?_, ?_, by simp only [parseRest, hr, h2, h5, Outcome.bind_ok]; exact ⟨_, rfl⟩⟩
            · intro x hx
              rcases List.mem_cons.1 hx with rfl | hx
              · exact hl
              · exact h3 x hx
            · rintro _ ⟨⟩
              have := h4 a rfl
              omega
          · refine .inr ⟨fun hall => h3 ⟨fun x hx => hall.1 x (by simp [hx]), ?_⟩, ?_⟩
            · rintro _ ⟨⟩
              have := hall.2 a rfl
              omega
            · simp only [parseRest, hr, h2, h4, Outcome.bind_ok, Outcome.bind_err]
        · refine .inr ⟨fun hall => ?_, ?_⟩
          · have := hall.2 a rfl
            omega
          · have h2 : addPlaintext (some a) consumed r = .err .parse := by
              simp only [addPlaintext, if_pos ht']
              rw [if_neg (by omega), if_neg (by simp; omega)]
            simp only [parseRest, hr, h2, Outcome.bind_ok, Outcome.bind_err]
      · have h2 : addPlaintext app consumed r = .ok (r, consumed) := by
          cases app with
          | none => rfl
          | some a =>
            have : r.typ ≠ .applicationData := by
              rw [he.typ]; intro ht; exact happ ⟨⟨a, rfl⟩, ht⟩
            simp only [addPlaintext, if_neg this]
        have hw' : ∀ a, app = some a → wireAppLength (m :: ms) = wireAppLength ms := by
          intro a ha
          rw [hw, if_neg (fun ht => happ ⟨⟨a, ha⟩, ht⟩)]; simp
        rcases ih (seq + 1) consumed hc with ⟨h3, h4, rs, h5⟩ | ⟨h3, h4⟩
        · refine .inl ⟨?_, ?_, by simp only [parseRest, hr, h2, h5, Outcome.bind_ok]; exact ⟨_, rfl⟩⟩
          · intro x hx
            rcases List.mem_cons.1 hx with rfl | hx
            · exact hl
            · exact h3 x hx
          · intro a ha
            rw [hw' a ha]; exact h4 a ha
        · refine .inr ⟨fun hall => h3 ⟨fun x hx => hall.1 x (by simp [hx]), ?_⟩, ?_⟩
          · intro a ha
            rw [← hw' a ha]; exact hall.2 a ha
          · simp only [parseRest, hr, h2, h4, Outcome.bind_ok, Outcome.bind_err]
    · refine .inr ⟨fun hall => ?_, ?_⟩
      · have := hall.1 m (by simp)
        omega
      · simp only [parseRest, hr, Outcome.bind_err]

/-! ### The records of a direction -/

theorem findIdx_protected (records : List OpaqueMessage) :
    (records.findIdx? (·.typ == .changeCipherSpec) = none ∧ protectedRecords records = [] ∧
      ∀ m ∈ records, m.typ ≠ .changeCipherSpec) ∨
    ∃ i, records.findIdx? (·.typ == .changeCipherSpec) = some i ∧ protectedRecords records = records.drop (i + 1) ∧
      ∃ m ∈ records, m.typ = .changeCipherSpec := by
  induction records with
  | nil => exact .inl ⟨rfl, rfl, by simp⟩
  | cons r rs ih =>
    by_cases h : r.typ = .changeCipherSpec
    · refine .inr ⟨0, ?_, ?_, r, by simp, h⟩
      · simp [List.findIdx?_cons, h]
      · simp [protectedRecords, List.dropWhile, h]
    · have e : protectedRecords (r :: rs) = protectedRecords rs := by
        simp [protectedRecords, List.dropWhile, h]
      rcases ih with ⟨h1, h2, h3⟩ | ⟨i, h1, h2, m, hm, hm'⟩
      · refine .inl ⟨?_, by rw [e, h2], ?_⟩
        · simp [List.findIdx?_cons, h, h1]
        · intro x hx
          rcases List.mem_cons.1 hx with rfl | hx
          · exact h
          · exact h3 x hx
      · refine .inr ⟨i + 1, ?_, by rw [e, h2]; rfl, m, by simp [hm], hm'⟩
        simp [List.findIdx?_cons, h, h1]

theorem encrypts_appLength (seq : Nat) (ms : List OpaqueMessage) (rs : List Record) (hl : rs.length = ms.length)
    (h : ∀ (i : Nat) (m : OpaqueMessage) (r : Record), ms[i]? = some m → rs[i]? = some r → Encrypts m (seq + i) r) :
    wireAppLength ms = appLength rs ∧ (∀ m ∈ ms, 24 ≤ m.payload.length) := by
  induction ms generalizing seq rs with
  | nil =>
    cases rs with
    | nil => exact ⟨rfl, by simp⟩
    | cons r rs => simp at hl
  | cons m ms ih =>
    cases rs with
    | nil => simp at hl
    | cons r rs =>
      have h0 := h 0 m r rfl rfl
      have hlen := encrypts_length h0
      have ht := h0.typ
      obtain ⟨i1, i2⟩ := ih (seq + 1) rs (by simpa using hl) (by
        intro i m' r' h1 h2
        have := h (i + 1) m' r' (by simpa using h1) (by simpa using h2)
        rwa [show seq + (i + 1) = seq + 1 + i by omega] at this)
      refine ⟨?_, ?_⟩
      · rw [wireAppLength_cons, i1]
        by_cases hm : m.typ = .applicationData
        · rw [if_pos hm, appLength_cons_app (by rw [ht, hm])]
          omega
        · rw [if_neg hm, appLength_cons_other (by rw [ht]; exact hm)]
          omega
      · intro x hx
        rcases List.mem_cons.1 hx with rfl | hx
        · omega
        · exact i2 x hx

theorem recordsOfWire_unique {wire : List OpaqueMessage} {app : Option Bytes} {rs rs' : List Record}
    (h : RecordsOfWire wire app rs) (h' : RecordsOfWire wire app rs') : rs = rs' := by
  have hl : rs.length = rs'.length := by rw [h.len, h'.len]
  -- by strong induction on the prefix
  have key : ∀ n, rs.take n = rs'.take n := by
    intro n
    induction n with
    | zero => rfl
    | succ n ih =>
      by_cases hn : n < rs.length
      · have hn' : n < rs'.length := by omega
        have hw : n < wire.length := by rw [← h.len]; exact hn
        have g : rs[n]? = some rs[n] := List.getElem?_eq_getElem hn
        have g' : rs'[n]? = some rs'[n] := List.getElem?_eq_getElem hn'
        have gw : wire[n]? = some wire[n] := List.getElem?_eq_getElem hw
        have e := h.enc n _ _ gw g
        have e' := h'.enc n _ _ gw g'
        have ec : rs[n].ciphertext = rs'[n].ciphertext := by
          have hl1 := encrypts_length e
          have hl2 := encrypts_length e'
          obtain ⟨tag, -, -, hp⟩ := e.tag
          obtain ⟨tag', -, -, hp'⟩ := e'.tag
          rw [hp, List.append_assoc, List.append_assoc] at hp'
          obtain ⟨-, e2⟩ := List.append_inj hp' (by rw [e.nonce, e'.nonce])
          exact (List.append_inj e2 (by omega)).1
        have : rs[n] = rs'[n] := by
          refine encrypts_unique e e' ?_
          by_cases ht : rs[n].typ = .applicationData
          · have ht' : rs'[n].typ = .applicationData := by rw [e'.typ, ← e.typ, ht]
            cases app with
            | none => rw [h.unknown rfl _ (List.getElem_mem hn), h'.unknown rfl _ (List.getElem_mem hn')]
            | some a =>
              rw [(h.known a rfl).2 n _ g ht, (h'.known a rfl).2 n _ g' ht', ih, ec]
          · have ht' : rs'[n].typ ≠ .applicationData := by rw [e'.typ, ← e.typ]; exact ht
            rw [h.other _ (List.getElem_mem hn) ht, h'.other _ (List.getElem_mem hn') ht']
        rw [List.take_succ_eq_append_getElem hn, List.take_succ_eq_append_getElem hn', ih, this]
      · rw [List.take_of_length_le (by omega), List.take_of_length_le (by omega)] at ih ⊢
        · exact ih
  have := key rs.length
  rw [List.take_of_length_le (Nat.le_refl _), List.take_of_length_le (by omega)] at this
  exact this

theorem drop_getElem? {α : Type} (l : List α) (i : Nat) :
    (l[i]? = none ∧ l.drop i = []) ∨ ∃ a, l[i]? = some a ∧ l.drop i = a :: l.drop (i + 1) := by
  by_cases h : i < l.length
  · exact .inr ⟨l[i], List.getElem?_eq_getElem h, List.drop_eq_getElem_cons h⟩
  · exact .inl ⟨List.getElem?_eq_none (by omega), List.drop_of_length_le (by omega)⟩

theorem appLength_le_of_ok {a : Bytes} {seq consumed : Nat} {ms : List OpaqueMessage} {rs : List Record}
    (hc : consumed ≤ a.length) (h : parseRest (some a) seq consumed ms = .ok rs) :
    consumed + appLength rs ≤ a.length := by
  have ho := parseRest_ok _ _ _ _ _ h
  rw [← (encrypts_appLength seq ms rs ho.len ho.enc).1]
  rcases parseRest_cases (some a) seq consumed ms (by rintro _ ⟨⟩; exact hc) with ⟨-, h2, -⟩ | ⟨-, h2⟩
  · exact h2 a rfl
  · rw [h] at h2; cases h2

/-- The record that is made of the Finished message. -/
theorem finished_encrypts {m : OpaqueMessage} (hl : 24 ≤ m.payload.length) (ht : m.typ = .handshake) :
    Encrypts m 0 ⟨0, .handshake, none, m.payload.take 8, (m.payload.take (m.payload.length - 16)).drop 8,
      some (m.payload.drop (m.payload.length - 16))⟩ := by
  refine ⟨rfl, ht.symm, by simp; omega, _, rfl, by simp; omega, ?_⟩
  simp only
  have h1 : m.payload.take 8 = (m.payload.take (m.payload.length - 16)).take 8 := by
    rw [List.take_take]; congr 1; omega
  rw [h1, List.take_append_drop, List.take_append_drop]

theorem parseRecords_sound {records : List OpaqueMessage} {app : Option Bytes} {rs : List Record}
    (h : parseRecords records app = .ok rs) : RecordsOfWire (protectedRecords records) app rs := by
  unfold parseRecords at h
  rcases findIdx_protected records with ⟨h1, -, -⟩ | ⟨i, h1, h2, -⟩
  · rw [h1] at h; cases h
  · rw [h1] at h
    simp only at h
    rcases drop_getElem? records (i + 1) with ⟨h3, h4⟩ | ⟨m, h3, h4⟩
    · rw [h3] at h; cases h
    · rw [h3] at h
      simp only at h
      rw [h2, h4]
      by_cases hl : m.payload.length < 8 + 16
      · rw [if_pos hl] at h; cases h
      · by_cases ht : m.typ = .handshake
        · rw [if_neg hl, if_neg (by simp [ht])] at h
          simp only [Outcome.bind_eq_ok, Outcome.ok.injEq] at h
          obtain ⟨rest, h5, rfl⟩ := h
          have ho := parseRest_ok _ _ _ _ _ h5
          have hf := finished_encrypts (by omega : 24 ≤ m.payload.length) ht
          refine ⟨⟨m, _, rfl, ht⟩, by simp only [List.length_cons, ho.len], ?_, ?_, ?_, ?_⟩
          · intro j m' r' hm hr
            cases j with
            | zero =>
              simp only [List.getElem?_cons_zero, Option.some.injEq] at hm hr
              subst hm hr
              exact hf
            | succ j =>
              simp only [List.getElem?_cons_succ] at hm hr
              have := ho.enc j m' r' hm hr
              rwa [Nat.add_comm 1 j] at this
          · intro x hx hxt
            rcases List.mem_cons.1 hx with rfl | hx
            · rfl
            · exact ho.other x hx hxt
          · intro ha x hx
            rcases List.mem_cons.1 hx with rfl | hx
            · rfl
            · exact ho.none ha x hx
          · intro a ha
            refine ⟨?_, ?_⟩
            · rw [appLength_cons_other (by simp)]
              subst ha
              simpa using appLength_le_of_ok (Nat.zero_le _) h5
            · intro j r' hr hrt
              cases j with
              | zero =>
                simp only [List.getElem?_cons_zero, Option.some.injEq] at hr
                subst hr
                cases hrt
              | succ j =>
                simp only [List.getElem?_cons_succ] at hr
                rw [ho.app a ha j r' hr hrt, List.take_succ_cons, appLength_cons_other (by simp), Nat.zero_add]
        · rw [if_neg hl, if_pos ht] at h; cases h

theorem parseRecords_complete {records : List OpaqueMessage} {app : Option Bytes} {rs : List Record}
    (h : RecordsOfWire (protectedRecords records) app rs) : ∃ rs', parseRecords records app = .ok rs' := by
  obtain ⟨m, rest, hw, ht⟩ := h.first
  unfold parseRecords
  rcases findIdx_protected records with ⟨h1, h2, -⟩ | ⟨i, h1, h2, -⟩
  · rw [h2] at hw; cases hw
  · rw [h1]
    simp only
    rcases drop_getElem? records (i + 1) with ⟨h3, h4⟩ | ⟨m', h3, h4⟩
    · rw [h2, h4] at hw; cases hw
    · rw [h3]
      simp only
      have hd : protectedRecords records = m' :: records.drop (i + 2) := by rw [h2, h4]
      rw [hd] at hw
      obtain ⟨rfl, rfl⟩ := List.cons.inj hw
      rw [hd] at h
      obtain ⟨e1, e2⟩ := encrypts_appLength 0 _ rs h.len (by simpa using h.enc)
      have hl := e2 m' (by simp)
      rw [if_neg (by omega), if_neg (by simp [ht])]
      rcases parseRest_cases app 1 0 (records.drop (i + 2)) (by simp) with ⟨-, -, rs', h5⟩ | ⟨h5, -⟩
      · exact ⟨_, by rw [h5, Outcome.bind_ok]⟩
      · refine absurd ⟨fun x hx => e2 x (by simp [hx]), ?_⟩ h5
        intro a ha
        have := (h.known a ha).1
        rw [← e1, wireAppLength_cons, if_neg (by rw [ht]; simp)] at this
        simpa using this

theorem parseRecords_iff (records : List OpaqueMessage) (app : Option Bytes) (rs : List Record) :
    parseRecords records app = .ok rs ↔ RecordsOfWire (protectedRecords records) app rs := by
  constructor
  · exact parseRecords_sound
  · intro h
    obtain ⟨rs', h'⟩ := parseRecords_complete h
    rw [h', recordsOfWire_unique h (parseRecords_sound h')]

theorem parseRecords_no_panic (records : List OpaqueMessage) (app : Option Bytes) : parseRecords records app ≠ .panic := by
  intro h
  unfold parseRecords at h
  split at h
  · cases h
  · split at h
    · cases h
    · split at h
      · cases h
      · split at h
        · cases h
        · rcases parseRest_cases app 1 0 (records.drop (_ + 2)) (by simp) with ⟨-, -, rs', h5⟩ | ⟨-, h5⟩
          · rw [h5] at h; cases h
          · rw [h5] at h; cases h

/-- Records of the wire are numbered and start with a handshake record. -/
theorem recordsOfWire_ok {wire : List OpaqueMessage} {app : Option Bytes} {rs : List Record}
    (h : RecordsOfWire wire app rs) : RecordsOk rs := by
  obtain ⟨m, rest, rfl, ht⟩ := h.first
  cases rs with
  | nil => have := h.len; simp at this
  | cons f rs =>
    have h0 := h.enc 0 m f rfl rfl
    refine ⟨⟨f, rs, rfl, by rw [h0.typ, ht], h0.seq, ?_⟩, ?_⟩
    · intro p hp
      rw [h.other f (by simp) (by rw [h0.typ, ht]; simp)] at hp
      cases hp
    · rw [List.pairwise_iff_getElem]
      intro i j hi hj hij
      have li : i < (m :: rest).length := by rw [← h.len]; exact hi
      have lj : j < (m :: rest).length := by rw [← h.len]; exact hj
      have e1 := h.enc i _ _ (List.getElem?_eq_getElem li) (List.getElem?_eq_getElem hi)
      have e2 := h.enc j _ _ (List.getElem?_eq_getElem lj) (List.getElem?_eq_getElem hj)
      rw [e1.seq, e2.seq]
      exact hij

theorem recordsOk_iff (env : TtEnv) (f : Record) (rs : List Record) :
    (validateFinishedRecord env f = .ok () ∧ validateSeq (f :: rs) = .ok ()) ↔ RecordsOk (f :: rs) := by
  rw [validateFinished_iff, validateSeq_iff]
  constructor
  · rintro ⟨h1, h2⟩
    exact ⟨⟨f, rs, rfl, h1⟩, h2⟩
  · rintro ⟨⟨f', rs', h1, h2⟩, h3⟩
    obtain ⟨rfl, rfl⟩ := List.cons.inj h1
    exact ⟨h2, h3⟩

/-! ### Application data of a transcript -/

theorem collectApp_iff (d : Direction) (rs : List Record) (data : Bytes) :
    TlsTranscript.collectApp d rs = .ok data ↔ AppData rs data := by
  induction rs generalizing data with
  | nil =>
    constructor
    · intro h; obtain rfl := Outcome.ok.inj h; exact appData_nil
    · rintro ⟨ps, h1, rfl⟩
      cases ps with
      | nil => rfl
      | cons p ps => simp at h1
  | cons r rs ih =>
    unfold TlsTranscript.collectApp
    by_cases ht : r.typ = .applicationData
    · rw [if_pos ht, appData_cons_app ht]
      cases hp : r.plaintext with
      | none => simp
      | some p =>
        simp only [Outcome.bind_eq_ok, Outcome.ok.injEq, Option.some.injEq, ih]
        constructor
        · rintro ⟨rest, h1, rfl⟩; exact ⟨p, rest, rfl, h1, rfl⟩
        · rintro ⟨p', rest, rfl, h1, rfl⟩; exact ⟨rest, h1, rfl⟩
    · rw [if_neg ht, appData_cons_other ht, ih]

theorem collectApp_err (d : Direction) (rs : List Record) (e : TtError) :
    TlsTranscript.collectApp d rs = .err e ↔ ∃ before r after, rs = before ++ r :: after ∧
      (∀ x ∈ before, x.typ = .applicationData → x.plaintext ≠ none) ∧
      r.typ = .applicationData ∧ r.plaintext = none ∧ e = .incomplete d r.seq := by
  induction rs with
  | nil => simp [TlsTranscript.collectApp]
  | cons r rs ih =>
    have tail : (r.typ = .applicationData → r.plaintext ≠ none) →
        ((∃ before x after, rs = before ++ x :: after ∧
          (∀ y ∈ before, y.typ = .applicationData → y.plaintext ≠ none) ∧
          x.typ = .applicationData ∧ x.plaintext = none ∧ e = .incomplete d x.seq) ↔
        ∃ before x after, r :: rs = before ++ x :: after ∧
          (∀ y ∈ before, y.typ = .applicationData → y.plaintext ≠ none) ∧
          x.typ = .applicationData ∧ x.plaintext = none ∧ e = .incomplete d x.seq) := by
      intro hr
      constructor
      · rintro ⟨before, x, after, rfl, h1, h2⟩
        refine ⟨r :: before, x, after, rfl, ?_, h2⟩
        intro y hy
        rcases List.mem_cons.1 hy with rfl | hy
        · exact hr
        · exact h1 y hy
      · rintro ⟨before, x, after, h0, h1, h2⟩
        cases before with
        | nil =>
          obtain ⟨rfl, rfl⟩ := List.cons.inj h0
          exact absurd h2.2.1 (hr h2.1)
        | cons b before =>
          obtain ⟨rfl, rfl⟩ := List.cons.inj h0
          exact ⟨before, x, after, rfl, fun y hy => h1 y (by simp [hy]), h2⟩
    unfold TlsTranscript.collectApp
    by_cases ht : r.typ = .applicationData
    · rw [if_pos ht]
      cases hp : r.plaintext with
      | none =>
        simp only [Outcome.err.injEq]
        constructor
        · rintro rfl; exact ⟨[], r, rs, rfl, by simp, ht, hp, rfl⟩
        · rintro ⟨before, x, after, h0, h1, h2, h3, rfl⟩
          cases before with
          | nil => obtain ⟨rfl, rfl⟩ := List.cons.inj h0; rfl
          | cons b before =>
            obtain ⟨rfl, rfl⟩ := List.cons.inj h0
            exact absurd hp (h1 _ (by simp) ht)
      | some p =>
        rw [← tail (by simp [hp]), ← ih]
        simp only
        cases TlsTranscript.collectApp d rs with
        | ok v => simp [Outcome.bind_ok]
        | err v => simp [Outcome.bind_err]
        | panic => simp [Outcome.bind_panic]
    · rw [if_neg ht, ih]
      exact tail (fun h => absurd h ht)

/-- With known application data, the transcript is as much of it as the records hold. -/
theorem recordsOfWire_appData {wire : List OpaqueMessage} {a : Bytes} {rs : List Record}
    (h : RecordsOfWire wire (some a) rs) : AppData rs (a.take (appLength rs)) := by
  have hk := (h.known a rfl).2
  clear h
  have key : ∀ (rs : List Record) (n : Nat), (∀ (i : Nat) (r : Record), rs[i]? = some r → r.typ = .applicationData →
      r.plaintext = some ((a.drop (n + appLength (rs.take i))).take r.ciphertext.length)) →
      AppData rs ((a.drop n).take (appLength rs)) := by
    intro rs
    induction rs with
    | nil => intro n _; simpa [appLength] using appData_nil
    | cons r rs ih =>
      intro n hk
      by_cases ht : r.typ = .applicationData
      · rw [appLength_cons_app ht]
        refine (appData_cons_app ht).2 ⟨_, _, hk 0 r rfl ht, ih (n + r.ciphertext.length) ?_, ?_⟩
        · intro i x hx hxt
          rw [hk (i + 1) x (by simpa using hx) hxt, List.take_succ_cons, appLength_cons_app ht, Nat.add_assoc]
        · simp only [List.take_zero]
          rw [show appLength [] = 0 from rfl, Nat.add_zero, ← take_add_drop, List.drop_drop]
      · rw [appLength_cons_other ht]
        refine (appData_cons_other ht).2 (ih n ?_)
        intro i x hx hxt
        rw [hk (i + 1) x (by simpa using hx) hxt, List.take_succ_cons, appLength_cons_other ht]
  simpa using key rs 0 (by simpa using hk)

end Tlsn
