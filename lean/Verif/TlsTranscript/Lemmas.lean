import Verif.TlsTranscript.Spec
import Verif.Tls.HandshakeProps

/-! # Lemmas about the TLS transcript builder -/

namespace Tlsn

theorem items_iff {α : Type} {c : Codec α} {P : α → Prop} (h : c.Law P) (hpos : ∀ x, P x → c.encode x ≠ []) (b : Bytes)
    (l : List α) :
    readItems c b.length (Reader.init b) = some l ↔ (∀ x ∈ l, P x) ∧ l.flatMap c.encode = b := by
  have he : encodeAll c l = l.flatMap c.encode := by simp [encodeAll, List.flatMap]
  constructor
  · intro hr
    obtain ⟨h1, h2⟩ := readItems_canon c P h.canon _ _ (Nat.zero_le _) l hr
    refine ⟨h2, ?_⟩
    rw [← he, ← h1.2]
    rfl
  · rintro ⟨h1, h2⟩
    refine readItems_encode c P h.inv hpos l h1 _ _ ?_ ?_
    · rw [he, h2]; exact Reader.init_at b
    · rw [he, h2]

/-- The header of a record that is not rejected, crates/tls-core/src/msgs/message.rs:86-106. -/
def headerOk (typ : ContentType) (version : ProtocolVersion) (len : UInt16) : Bool :=
  !(decide (typ ≠ .applicationData ∧ len = 0) || decide (len ≥ maxPayload) || typ.isUnknown || version.isIllegal)

theorem readOpaque_eq : readOpaque = (do
    let typ ← codecContentType.read
    let version ← codecVersion.read
    let len ← codecU16.read
    Rd.lift (if headerOk typ version len then some () else none)
    let payload ← readBody len.toNat
    pure ⟨typ, version, payload⟩ : Rd OpaqueMessage) := by
  funext r
  show (match OpaqueMessage.read r with | .ok p => some p | _ => none) =
    (codecContentType.read r).bind fun p => (codecVersion.read p.2).bind fun q => (codecU16.read q.2).bind fun s =>
      ((if headerOk p.1 q.1 s.1 then some () else none).map fun x => (x, s.2)).bind fun u =>
        (readBody s.1.toNat u.2).bind fun w => some (⟨p.1, q.1, w.1⟩, w.2)
  unfold OpaqueMessage.read
  cases codecContentType.read r with
  | none => rfl
  | some p =>
    obtain ⟨typ, r⟩ := p
    simp only [Option.bind_some]
    cases codecVersion.read r with
    | none => rfl
    | some p =>
      obtain ⟨version, r⟩ := p
      simp only [Option.bind_some]
      cases codecU16.read r with
      | none => rfl
      | some p =>
        obtain ⟨len, r⟩ := p
        simp only [Option.bind_some]
        by_cases c1 : typ ≠ .applicationData ∧ len = 0
        · simp [headerOk, c1]
        by_cases c2 : len ≥ maxPayload
        · simp [headerOk, c1, c2]
        by_cases c3 : typ.isUnknown = true
        · simp [headerOk, c1, c2, c3]
        by_cases c4 : version.isIllegal = true
        · simp [headerOk, c1, c2, c3, c4]
        rw [if_neg c1, if_neg c2, if_neg c3, if_neg c4]
        have : headerOk typ version len = true := by
          unfold headerOk
          rw [decide_eq_false c1, decide_eq_false c2]
          simp [c3, c4]
        rw [if_pos this]
        simp only [Option.map_some, Option.bind_some]
        cases readBody len.toNat r with
        | none => rfl
        | some p => rfl

theorem headerOk_iff {m : OpaqueMessage} {len : UInt16} (ht : ContentType.ofU8 m.typ.getU8 = m.typ)
    (hv : ProtocolVersion.ofU16 m.version.getU16 = m.version) :
    headerOk m.typ m.version len = true ↔ LegalHeader m.typ.getU8 m.version.getU16.toNat len.toNat := by
  rw [legalHeader_iff m.version.getU16.toNat_lt len.toNat_lt, UInt16.ofNat_toNat, UInt16.ofNat_toNat, ht, hv]
  simp only [headerOk, Bool.not_eq_true', Bool.or_eq_false_iff, decide_eq_false_iff_not, and_assoc]

theorem law_opaque : codecOpaque.Law FrameOk := by
  have hr : codecOpaque.read = _ := readOpaque_eq
  constructor
  · intro m hm rest
    have hl : m.payload.length < 65536 := Nat.lt_trans hm.1.2.2.1 (by decide)
    have h1 : (UInt16.ofNat m.payload.length).toNat = m.payload.length := by
      rw [UInt16.toNat_ofNat']; exact Nat.mod_eq_of_lt hl
    have ho : headerOk m.typ m.version (UInt16.ofNat m.payload.length) = true :=
      (headerOk_iff hm.2.1 hm.2.2).2 (by rw [h1]; exact hm.1)
    rw [hr]
    show Yields _ (OpaqueMessage.encode m ++ rest) _ _
    simp only [OpaqueMessage.encode, List.append_assoc]
    refine Yields.bind (contentType_inverts m.typ hm.2.1 _) (Yields.bind (version_inverts m.version hm.2.2 _)
      (Yields.bind (u16_inverts _ trivial _) ?_))
    simp only [ho, if_true]
    refine Yields.bind (Yields.lift _ _) (Yields.bind (yields_body m.payload rest h1.symm) ?_)
    exact Yields.pure _ _
  · rw [hr]
    show CanonRd _ OpaqueMessage.encode FrameOk
    refine CanonRd.bind (eg := fun m => codecVersion.encode m.version ++
      (codecU16.encode (UInt16.ofNat m.payload.length) ++ m.payload)) contentType_canon fun t ht => ?_
    refine CanonRd.bind (eg := fun m => codecU16.encode (UInt16.ofNat m.payload.length) ++ m.payload)
      version_canon fun v hv => ?_
    refine CanonRd.bind (eg := fun m => m.payload) u16_canon fun n _ => ?_
    refine CanonRd.bind (eg := fun m => m.payload) (canon_lift _ (fun _ => ([] : Bytes))
      (fun _ => headerOk t v n = true) fun x hx => ?_) fun _ hok => ?_
    · by_cases c : headerOk t v n = true
      · exact ⟨rfl, c⟩
      · rw [if_neg c] at hx; cases hx
    · refine CanonRd.bind (eg := fun _ => []) (canon_body n.toNat) fun b hb => ?_
      have hn : UInt16.ofNat b.length = n := by rw [hb, UInt16.ofNat_toNat]
      refine canon_pure _ _ _ rfl ⟨⟨⟨⟨⟨⟨?_, ht, hv⟩, rfl⟩, rfl⟩, ?_⟩, rfl⟩, ?_⟩
      · have := (headerOk_iff (m := ⟨t, v, b⟩) (len := n) ht hv).1 hok
        rwa [← hb] at this
      · simp only [hn]
      · simp

theorem opaque_encode_eq {m : OpaqueMessage} (h : m.payload.length < 65536) : OpaqueMessage.encode m = frameBytes m := by
  have : (UInt16.ofNat m.payload.length).toNat = m.payload.length := by
    rw [UInt16.toNat_ofNat']; exact Nat.mod_eq_of_lt h
  show m.typ.getU8 :: (beBytes 2 m.version.getU16.toNat ++
    (beBytes 2 (UInt16.ofNat m.payload.length).toNat ++ m.payload)) = _
  rw [this]
  rfl

theorem parseRaw_iff (b : Bytes) (l : List OpaqueMessage) : parseRawRecords b = .ok l ↔ RecordStream b l := by
  have h : readItems codecOpaque b.length (Reader.init b) = some l ↔ _ :=
    items_iff law_opaque (fun m hm => by
      show OpaqueMessage.encode m ≠ []
      rw [opaque_encode_eq (Nat.lt_trans hm.1.2.2.1 (by decide))]
      simp [frameBytes]) b l
  have hf : (∀ x ∈ l, FrameOk x) → l.flatMap codecOpaque.encode = l.flatMap frameBytes := by
    intro hl
    simp only [List.flatMap]
    congr 1
    exact List.map_congr_left fun m hm => opaque_encode_eq (Nat.lt_trans (hl m hm).1.2.2.1 (by decide))
  have : parseRawRecords b = .ok l ↔ readItems codecOpaque b.length (Reader.init b) = some l := by
    unfold parseRawRecords
    cases readItems codecOpaque b.length (Reader.init b) <;> simp
  rw [this, h]
  constructor
  · rintro ⟨h1, h2⟩
    exact ⟨by rw [← h2, hf h1], h1⟩
  · rintro ⟨h1, h2⟩
    exact ⟨h2, by rw [hf h2, ← h1]⟩

theorem parseRaw_no_panic (b : Bytes) : parseRawRecords b ≠ .panic := by
  unfold parseRawRecords
  cases readItems codecOpaque b.length (Reader.init b) <;> simp

theorem collectHandshake_eq (records : List OpaqueMessage) : collectHandshake records = clearHandshake records := by
  induction records with
  | nil => rfl
  | cons r rs ih =>
    unfold collectHandshake clearHandshake
    by_cases h : r.typ = .changeCipherSpec
    · simp [h]
    · by_cases h' : r.typ = .handshake
      · simp only [h', if_neg (show ¬ContentType.handshake = ContentType.changeCipherSpec by decide)]
        rw [ih]; simp [clearHandshake, h']
      · rw [if_neg h, if_neg h', ih]; simp [clearHandshake, h, h']

/-- The message as a type and a body. -/
def HandshakeMessage.raw (m : HandshakeMessage) : Byte × Bytes := (m.wireType, m.payload.encode)

theorem encode_eq_raw {dnsOk : Bytes → Bool} {vers : ProtocolVersion} {m : HandshakeMessage} (h : m.Fits dnsOk vers) :
    m.encode = hsBytes m.raw := by
  rw [(C65_layout_message dnsOk vers m h).1]
  rfl

theorem parseStream_iff (env : TtEnv) (records : List OpaqueMessage) (b : Bytes) (ms : List HandshakeMessage) :
    parseHandshakeStream env records = .ok (b, ms) ↔ b = clearHandshake records ∧
      (∀ m ∈ ms, m.Fits env.dnsOk .tls12) ∧ b = messageBytes (ms.map (·.raw)) := by
  have h := items_iff (law_handshakeMessage env.dnsOk .tls12) (fun m _ => by
      show HandshakeMessage.encode m ≠ []
      simp [HandshakeMessage.encode, codecU8]) (collectHandshake records) ms
  have hf : (∀ x ∈ ms, x.Fits env.dnsOk .tls12) → ms.flatMap HandshakeMessage.encode = messageBytes (ms.map (·.raw)) := by
    intro hl
    simp only [messageBytes, List.flatMap, List.map_map]
    congr 1
    exact List.map_congr_left fun m hm => encode_eq_raw (hl m hm)
  have e : parseHandshakeStream env records = .ok (b, ms) ↔ collectHandshake records = b ∧
      readItems (codecHandshake12 env.dnsOk) (collectHandshake records).length (Reader.init (collectHandshake records)) =
        some ms := by
    unfold parseHandshakeStream
    simp only
    cases readItems (codecHandshake12 env.dnsOk) (collectHandshake records).length
      (Reader.init (collectHandshake records)) <;> simp
  rw [e]
  constructor
  · rintro ⟨h1, h2⟩
    obtain ⟨h3, h4⟩ := h.1 h2
    exact ⟨by rw [← h1, collectHandshake_eq], h3, by rw [← h1, ← h4]; exact hf h3⟩
  · rintro ⟨h1, h2, h3⟩
    refine ⟨by rw [collectHandshake_eq, h1], h.2 ⟨h2, ?_⟩⟩
    show ms.flatMap HandshakeMessage.encode = _
    rw [hf h2, ← h3, collectHandshake_eq, h1]

theorem parseStream_no_panic (env : TtEnv) (records : List OpaqueMessage) : parseHandshakeStream env records ≠ .panic := by
  unfold parseHandshakeStream
  simp only
  cases readItems (codecHandshake12 env.dnsOk) (collectHandshake records).length
      (Reader.init (collectHandshake records)) <;> simp

/-! ### Scanning -/

/-- Where the messages end. -/
def ends : Nat → List (Byte × Bytes) → List HandshakeMsgInfo
  | _, [] => []
  | pos, m :: ms => ⟨m.1, pos + (hsBytes m).length⟩ :: ends (pos + (hsBytes m).length) ms

theorem messageBytes_cons (m : Byte × Bytes) (ms : List (Byte × Bytes)) :
    messageBytes (m :: ms) = hsBytes m ++ messageBytes ms := rfl

theorem messageBytes_append (a b : List (Byte × Bytes)) : messageBytes (a ++ b) = messageBytes a ++ messageBytes b := by
  simp [messageBytes]

theorem scanLoop_messages (ms : List (Byte × Bytes)) (hl : ∀ m ∈ ms, m.2.length < 2 ^ 24) (pre : Bytes) (fuel : Nat)
    (hf : (messageBytes ms).length ≤ fuel) :
    scanLoop (pre ++ messageBytes ms) fuel pre.length = .ok (ends pre.length ms) := by
  induction ms generalizing pre fuel with
  | nil => cases fuel <;> simp [scanLoop, messageBytes, ends]
  | cons m ms ih =>
    have hm := hl m (by simp)
    obtain ⟨t, body⟩ := m
    simp only at hm
    have hlen := hsBytes_length (t, body)
    rw [messageBytes_cons, List.length_append] at hf
    obtain ⟨n, rfl⟩ : ∃ n, fuel = n + 1 := ⟨fuel - 1, by omega⟩
    obtain ⟨x, y, z, hxyz⟩ : ∃ x y z, beBytes 3 body.length = [x, y, z] := ⟨_, _, _, rfl⟩
    have hnat : beNat [0, x, y, z] = body.length := by
      have : beNat [x, y, z] = body.length := by rw [← hxyz]; rw [beNat_beBytes]; exact Nat.mod_eq_of_lt (by simpa using hm)
      rw [← this]; simp [beNat]
    have hb : pre ++ messageBytes ((t, body) :: ms) = pre ++ (t :: x :: y :: z :: (body ++ messageBytes ms)) := by
      rw [messageBytes_cons, hsBytes]; simp [hxyz]
    have g0 : (pre ++ messageBytes ((t, body) :: ms)).getD pre.length 0 = t := by rw [hb]; simp
    have g1 : (pre ++ messageBytes ((t, body) :: ms)).getD (pre.length + 1) 0 = x := by rw [hb]; simp
    have g2 : (pre ++ messageBytes ((t, body) :: ms)).getD (pre.length + 2) 0 = y := by rw [hb]; simp
    have g3 : (pre ++ messageBytes ((t, body) :: ms)).getD (pre.length + 3) 0 = z := by rw [hb]; simp
    have htot : (pre ++ messageBytes ((t, body) :: ms)).length = pre.length + (4 + body.length) + (messageBytes ms).length := by
      rw [messageBytes_cons]; simp only [List.length_append, hlen]; omega
    have := ih (fun m h => hl m (by simp [h])) (pre ++ hsBytes (t, body)) n (by simp only [] at hlen; omega)
    simp only [List.length_append, List.append_assoc, hlen] at this
    rw [messageBytes_cons] at g0 g1 g2 g3 htot ⊢
    simp only [scanLoop, g0, g1, g2, g3, hnat, htot, ends, hlen]
    rw [if_pos (by omega), if_neg (by omega), if_neg (by omega), Nat.add_assoc, this]
    rfl

theorem scan_messages (ms : List (Byte × Bytes)) (hl : ∀ m ∈ ms, m.2.length < 2 ^ 24) :
    scanHandshakeMessages (messageBytes ms) = .ok (ends 0 ms) := by
  have := scanLoop_messages ms hl [] (messageBytes ms).length (Nat.le_refl _)
  simpa [scanHandshakeMessages] using this

theorem ends_any (t : Byte) (pos : Nat) (ms : List (Byte × Bytes)) :
    (ends pos ms).any (·.typ == t) = true ↔ ∃ m ∈ ms, m.1 = t := by
  induction ms generalizing pos with
  | nil => simp [ends]
  | cons m ms ih => simp [ends, ih]

theorem ends_find (t : Byte) (pos : Nat) (ms : List (Byte × Bytes)) :
    ((ends pos ms).find? (·.typ == t) = none ∧ ∀ m ∈ ms, m.1 ≠ t) ∨
      ∃ pre body post, ms = pre ++ (t, body) :: post ∧ (∀ m ∈ pre, m.1 ≠ t) ∧
        (ends pos ms).find? (·.typ == t) = some ⟨t, pos + (messageBytes (pre ++ [(t, body)])).length⟩ := by
  induction ms generalizing pos with
  | nil => exact .inl ⟨rfl, by simp⟩
  | cons m ms ih =>
    by_cases hm : m.1 = t
    · refine .inr ⟨[], m.2, ms, ?_, by simp, ?_⟩
      · simp [← hm]
      · subst hm; simp [ends, messageBytes]
    · have hne : ((m.1 == t) = true) = False := by simp [hm]
      rcases ih (pos + (hsBytes m).length) with ⟨h1, h2⟩ | ⟨pre, body, post, h1, h2, h3⟩
      · refine .inl ⟨?_, ?_⟩
        · simp only [ends, List.find?]
          rw [show (m.1 == t) = false by simpa using hm]
          exact h1
        · intro x hx
          rcases List.mem_cons.1 hx with rfl | hx
          · exact hm
          · exact h2 x hx
      · refine .inr ⟨m :: pre, body, post, by rw [h1]; rfl, ?_, ?_⟩
        · intro x hx
          rcases List.mem_cons.1 hx with rfl | hx
          · exact hm
          · exact h2 x hx
        · simp only [ends, List.find?]
          rw [show (m.1 == t) = false by simpa using hm]
          simp only [h3]
          rw [List.cons_append, messageBytes_cons, List.length_append]
          simp only [Nat.add_assoc]

theorem first_unique {t : Byte} {pre pre' post post' : List (Byte × Bytes)} {body body' : Bytes}
    (h : pre ++ (t, body) :: post = pre' ++ (t, body') :: post') (hp : ∀ m ∈ pre, m.1 ≠ t) (hp' : ∀ m ∈ pre', m.1 ≠ t) :
    pre = pre' ∧ body = body' ∧ post = post' := by
  induction pre generalizing pre' with
  | nil =>
    cases pre' with
    | nil => simpa using h
    | cons x xs =>
      simp only [List.nil_append, List.cons_append, List.cons.injEq] at h
      exact absurd (by rw [← h.1]) (hp' x (by simp))
  | cons x xs ih =>
    cases pre' with
    | nil =>
      simp only [List.nil_append, List.cons_append, List.cons.injEq] at h
      exact absurd (by rw [h.1]) (hp x (by simp))
    | cons y ys =>
      simp only [List.cons_append, List.cons.injEq] at h
      obtain ⟨h1, h2, h3⟩ := ih h.2 (fun m hm => hp m (by simp [hm])) (fun m hm => hp' m (by simp [hm]))
      exact ⟨by rw [h.1, h1], h2, h3⟩

theorem ends_find_first (t : Byte) (pos : Nat) (pre : List (Byte × Bytes)) (body : Bytes) (post : List (Byte × Bytes))
    (hp : ∀ m ∈ pre, m.1 ≠ t) :
    (ends pos (pre ++ (t, body) :: post)).find? (·.typ == t) =
      some ⟨t, pos + (messageBytes (pre ++ [(t, body)])).length⟩ := by
  rcases ends_find t pos (pre ++ (t, body) :: post) with ⟨_, h⟩ | ⟨pre', body', post', h1, h2, h3⟩
  · exact absurd rfl (h (t, body) (by simp))
  · obtain ⟨rfl, rfl, rfl⟩ := first_unique h1 hp h2
    exact h3

/-! ### The digests -/

theorem slice_prefix (a b : Bytes) : slice (a ++ b) 0 a.length = some a := by
  simp [slice]

theorem slice_suffix (a b : Bytes) : slice (a ++ b) a.length (a ++ b).length = some b := by
  simp only [slice, List.length_append]
  rw [if_pos ⟨by omega, by omega⟩, ← List.length_append, List.take_length]
  simp

theorem slice_mid (a b c : Bytes) : slice (a ++ (b ++ c)) a.length (a.length + b.length) = some b := by
  simp only [slice, List.length_append]
  rw [if_pos ⟨by omega, by omega⟩, ← List.length_append, ← List.append_assoc, List.take_left]
  simp

/-- The digests of a handshake. -/
theorem digests_flights (env : TtEnv) (ch : Bytes) (bk ak sf sl : List (Byte × Bytes)) (kx d : Bytes) :
    digestsAt env (messageBytes ((0x01, ch) :: (bk ++ (0x10, kx) :: ak))) (messageBytes (sf ++ (0x0e, d) :: sl))
        (0 + (hsBytes (0x01, ch)).length)
        (0 + (messageBytes ((0x01, ch) :: bk ++ [(0x10, kx)])).length)
        (0 + (messageBytes (sf ++ [(0x0e, d)])).length) =
      .ok (env.sha256 (messageBytes ((0x01, ch) :: (sf ++ [(0x0e, d)] ++ bk ++ [(0x10, kx)] ++ ak))),
        env.sha256 (messageBytes ((0x01, ch) :: (sf ++ [(0x0e, d)] ++ sl ++ bk ++ [(0x10, kx)]))),
        ⟨messageBytes ((0x01, ch) :: (bk ++ (0x10, kx) :: ak)), messageBytes (sf ++ (0x0e, d) :: sl),
          (hsBytes (0x01, ch)).length, (messageBytes (sf ++ [(0x0e, d)])).length⟩) := by
  have e1 : messageBytes ((0x01, ch) :: (bk ++ (0x10, kx) :: ak)) =
      hsBytes (0x01, ch) ++ (messageBytes (bk ++ [(0x10, kx)]) ++ messageBytes ak) := by
    simp [messageBytes]
  have e2 : messageBytes (sf ++ (0x0e, d) :: sl) = messageBytes (sf ++ [(0x0e, d)]) ++ messageBytes sl := by
    simp [messageBytes]
  have e3 : (messageBytes ((0x01, ch) :: bk ++ [(0x10, kx)])).length =
      (hsBytes (0x01, ch)).length + (messageBytes (bk ++ [(0x10, kx)])).length := by
    simp [messageBytes]
  unfold digestsAt
  simp only [Nat.zero_add]
  rw [e1, e2, e3, slice_prefix, slice_mid, slice_prefix, slice_suffix]
  simp [hashInput, messageBytes]

theorem compute_flights (env : TtEnv) (ch : Bytes) (bk ak sf sl : List (Byte × Bytes)) (kx d : Bytes)
    (hbk : ∀ m ∈ bk, m.1 ≠ 0x10) (hsf : ∀ m ∈ sf, m.1 ≠ 0x0e) (hh : ∃ m ∈ sf ++ (0x0e, d) :: sl, m.1 = 0x02) :
    computeHandshakeHashes env (messageBytes ((0x01, ch) :: (bk ++ (0x10, kx) :: ak)))
        (messageBytes (sf ++ (0x0e, d) :: sl))
        (ends 0 ((0x01, ch) :: (bk ++ (0x10, kx) :: ak))) (ends 0 (sf ++ (0x0e, d) :: sl)) =
      .ok (env.sha256 (messageBytes ((0x01, ch) :: (sf ++ [(0x0e, d)] ++ bk ++ [(0x10, kx)] ++ ak))),
        env.sha256 (messageBytes ((0x01, ch) :: (sf ++ [(0x0e, d)] ++ sl ++ bk ++ [(0x10, kx)]))),
        ⟨messageBytes ((0x01, ch) :: (bk ++ (0x10, kx) :: ak)), messageBytes (sf ++ (0x0e, d) :: sl),
          (hsBytes (0x01, ch)).length, (messageBytes (sf ++ [(0x0e, d)])).length⟩) := by
  have hk := ends_find_first 0x10 0 ((0x01, ch) :: bk) kx ak (by
    intro m hm
    rcases List.mem_cons.1 hm with rfl | hm
    · show (0x01 : Byte) ≠ 0x10; decide
    · exact hbk m hm)
  have hd := ends_find_first 0x0e 0 sf d sl hsf
  have ha := (ends_any 0x02 0 _).2 hh
  rw [List.cons_append] at hk
  rw [← digests_flights]
  unfold computeHandshakeHashes
  rw [hk, hd, ha]
  simp [ends]

theorem compute_cases (env : TtEnv) (cs rs : List (Byte × Bytes))
    (h : computeHandshakeHashes env (messageBytes cs) (messageBytes rs) (ends 0 cs) (ends 0 rs) ≠ .err .parse) :
    ∃ ch bk kx ak sf d sl, cs = (0x01, ch) :: (bk ++ (0x10, kx) :: ak) ∧ rs = sf ++ (0x0e, d) :: sl ∧
      (∀ m ∈ bk, m.1 ≠ 0x10) ∧ (∀ m ∈ sf, m.1 ≠ 0x0e) ∧ ∃ m ∈ rs, m.1 = 0x02 := by
  unfold computeHandshakeHashes at h
  cases cs with
  | nil => exact absurd rfl h
  | cons c cs =>
    obtain ⟨t, ch⟩ := c
    have hhd : (ends 0 ((t, ch) :: cs)).head? = some ⟨t, 0 + (hsBytes (t, ch)).length⟩ := rfl
    rw [hhd] at h
    simp only at h
    by_cases ht : t = 0x01
    · subst ht
      rw [if_neg (by simp)] at h
      rcases ends_find 0x10 0 ((0x01, ch) :: cs) with ⟨h1, -⟩ | ⟨pre, kx, ak, h1, h2, h3⟩
      · rw [h1] at h; exact absurd rfl h
      · rw [h3] at h
        simp only at h
        by_cases ha : (ends 0 rs).any (·.typ == 0x02) = true
        · rw [ha] at h
          simp only [Bool.not_true, Bool.false_eq_true, if_false] at h
          rcases ends_find 0x0e 0 rs with ⟨h4, -⟩ | ⟨sf, d, sl, h4, h5, h6⟩
          · rw [h4] at h; exact absurd rfl h
          · cases pre with
            | nil => simp at h1
            | cons p pre =>
              simp only [List.cons_append, List.cons.injEq] at h1
              refine ⟨ch, pre, kx, ak, sf, d, sl, by rw [h1.2], h4, fun m hm => h2 m (by simp [hm]), h5, ?_⟩
              exact (ends_any _ _ _).1 ha
        · rw [Bool.not_eq_true] at ha
          rw [ha] at h
          simp at h
    · rw [if_pos ht] at h; exact absurd rfl h

theorem compute_ok (env : TtEnv) (cs rs : List (Byte × Bytes)) (x : Bytes × Bytes × SfHashInput)
    (h : computeHandshakeHashes env (messageBytes cs) (messageBytes rs) (ends 0 cs) (ends 0 rs) = .ok x) :
    ∃ ch bk kx ak sf d sl, cs = (0x01, ch) :: (bk ++ (0x10, kx) :: ak) ∧ rs = sf ++ (0x0e, d) :: sl ∧
      (∀ m ∈ bk, m.1 ≠ 0x10) ∧ (∀ m ∈ sf, m.1 ≠ 0x0e) ∧ ∃ m ∈ rs, m.1 = 0x02 :=
  compute_cases env cs rs (by rw [h]; simp)

theorem compute_no_panic (env : TtEnv) (cs rs : List (Byte × Bytes)) :
    computeHandshakeHashes env (messageBytes cs) (messageBytes rs) (ends 0 cs) (ends 0 rs) ≠ .panic := by
  intro h
  obtain ⟨ch, bk, kx, ak, sf, d, sl, rfl, rfl, h1, h2, h3⟩ := compute_cases env cs rs (by rw [h]; simp)
  rw [compute_flights env ch bk ak sf sl kx d h1 h2 h3] at h
  cases h

theorem wireType_eq {m : HandshakeMessage} {t : Byte} (h : m.wireType = t) (ht : t ≠ 0x02) : m.typ = t := by
  unfold HandshakeMessage.wireType at h
  split at h
  · exact absurd h.symm ht
  · exact h

theorem done_empty {dnsOk : Bytes → Bool} {vers : ProtocolVersion} {m : HandshakeMessage} (h : m.Fits dnsOk vers)
    (ht : m.raw.1 = 0x0e) : m.raw.2 = [] := by
  have hy : m.typ = 0x0e := wireType_eq ht (by decide)
  obtain ⟨hb, -⟩ := h
  obtain ⟨typ, p⟩ := m
  simp only at hy
  subst hy
  cases p <;> simp only [HandshakeMessage.BodyFits, handshakeTypes] at hb <;>
    first
    | rfl
    | (exfalso; revert hb; simp)

/-- The messages of both directions. -/
structure Parsed (env : TtEnv) (sent recv : List OpaqueMessage) (f : Flights) (cms rms : List HandshakeMessage) : Prop where
  hs : IsHandshake sent recv f
  client : f.client = cms.map (·.raw)
  server : f.server = rms.map (·.raw)
  cfits : ∀ m ∈ cms, m.Fits env.dnsOk .tls12
  sfits : ∀ m ∈ rms, m.Fits env.dnsOk .tls12

/-- The digests of the flights; the second one is what the code computes. -/
def digestsOf (env : TtEnv) (f : Flights) : Bytes × Bytes × SfHashInput :=
  (env.sha256 (messageBytes f.clientFinished),
    env.sha256 (messageBytes ((0x01, f.clientHello) :: (f.server ++ f.beforeKx ++ [(0x10, f.clientKx)]))),
    ⟨messageBytes f.client, messageBytes f.server, (hsBytes (0x01, f.clientHello)).length,
      (messageBytes (f.serverFirst ++ [(0x0e, [])])).length⟩)

theorem compute_digests (env : TtEnv) (f : Flights) (hf : f.Valid) :
    computeHandshakeHashes env (messageBytes f.client) (messageBytes f.server) (ends 0 f.client) (ends 0 f.server) =
      .ok (digestsOf env f) := by
  have := compute_flights env f.clientHello f.beforeKx f.afterKx f.serverFirst f.serverLast f.clientKx [] hf.kx hf.done
    hf.hello
  simp only [Flights.client, Flights.server]
  rw [this]
  simp [digestsOf, Flights.clientFinished, Flights.session, Flights.client, Flights.server]

theorem components_iff (env : TtEnv) (b : TtBuilder) (sent recv : List OpaqueMessage) (b' : TtBuilder)
    (x : Bytes × Bytes × SfHashInput) :
    b.parseHandshakeComponents env sent recv = .ok (b', x) ↔
      ∃ f cms rms v d, Parsed env sent recv f cms rms ∧ extractHandshake env cms rms = .ok (v, d) ∧ b' = b.fill v d ∧
        x = digestsOf env f := by
  unfold TtBuilder.parseHandshakeComponents
  simp only [Outcome.bind_eq_ok, Outcome.ok.injEq, Prod.mk.injEq]
  constructor
  · rintro ⟨⟨sb, cms⟩, h1, ⟨rb, rms⟩, h2, ⟨v, d⟩, h3, sm, h4, rm, h5, y, h6, h7, rfl⟩
    obtain ⟨rfl, hc, hcb⟩ := (parseStream_iff _ _ _ _).1 h1
    obtain ⟨rfl, hr, hrb⟩ := (parseStream_iff _ _ _ _).1 h2
    have lc : ∀ m ∈ cms.map (·.raw), m.2.length < 2 ^ 24 := by
      intro m hm
      obtain ⟨a, ha, rfl⟩ := List.mem_map.1 hm
      exact (hc a ha).2
    have lr : ∀ m ∈ rms.map (·.raw), m.2.length < 2 ^ 24 := by
      intro m hm
      obtain ⟨a, ha, rfl⟩ := List.mem_map.1 hm
      exact (hr a ha).2
    simp only [hcb, hrb, scan_messages _ lc, scan_messages _ lr, Outcome.ok.injEq] at h4 h5 h6
    subst h4 h5
    obtain ⟨ch, bk, kx, ak, sf, dd, sl, e1, e2, e3, e4, e5⟩ := compute_ok env _ _ _ h6
    have hd : dd = [] := by
      have : (0x0e, dd) ∈ rms.map (·.raw) := by rw [e2]; simp
      obtain ⟨a, ha, hra⟩ := List.mem_map.1 this
      have := done_empty (hr a ha) (by rw [hra])
      rw [hra] at this
      exact this
    subst hd
    have hv : (Flights.mk ch sf bk kx ak sl).Valid := by
      refine ⟨e3, e4, ?_, ?_⟩
      · rw [e2] at e5; exact e5
      · intro m hm
        rcases List.mem_append.1 hm with hm | hm
        · exact lc m (by rw [e1]; exact hm)
        · exact lr m (by rw [e2]; exact hm)
    refine ⟨⟨ch, sf, bk, kx, ak, sl⟩, cms, rms, v, d, ⟨⟨by rw [hcb, e1]; rfl, by rw [hrb, e2]; rfl, hv⟩, e1.symm,
      e2.symm, hc, hr⟩, h3, h7.symm, ?_⟩
    have := compute_digests env ⟨ch, sf, bk, kx, ak, sl⟩ hv
    have c1 : (Flights.mk ch sf bk kx ak sl).client = cms.map (·.raw) := e1.symm
    have c2 : (Flights.mk ch sf bk kx ak sl).server = rms.map (·.raw) := e2.symm
    rw [c1, c2, h6] at this
    exact (Outcome.ok.inj this)
  · rintro ⟨f, cms, rms, v, d, hp, h3, rfl, rfl⟩
    have lc : ∀ m ∈ f.client, m.2.length < 2 ^ 24 := fun m hm => hp.hs.valid.fits m (by simp [hm])
    have lr : ∀ m ∈ f.server, m.2.length < 2 ^ 24 := fun m hm => hp.hs.valid.fits m (by simp [hm])
    refine ⟨(clearHandshake sent, cms), (parseStream_iff _ _ _ _).2 ⟨rfl, hp.cfits, by rw [hp.hs.sent_eq, hp.client]⟩,
      (clearHandshake recv, rms), (parseStream_iff _ _ _ _).2 ⟨rfl, hp.sfits, by rw [hp.hs.recv_eq, hp.server]⟩,
      (v, d), h3, ends 0 f.client, ?_, ends 0 f.server, ?_, digestsOf env f, ?_, rfl, rfl⟩
    · simp only [hp.hs.sent_eq]; exact scan_messages _ lc
    · simp only [hp.hs.recv_eq]; exact scan_messages _ lr
    · simp only [hp.hs.sent_eq, hp.hs.recv_eq]; exact compute_digests env f hp.hs.valid

end Tlsn
