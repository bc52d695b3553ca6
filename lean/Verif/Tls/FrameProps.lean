import Verif.Tls.DeframeLemmas
import Verif.Tls.JoinLemmas

/-! # The TLS message layer (C36 - C39) -/

namespace Tlsn

/-! ### Encoding -/

/-- At any place of any buffer, the encoding of an admissible value is read back and exactly the encoding is
consumed. -/
def RoundTrips {α : Type} (c : Codec α) (P : α → Prop) : Prop :=
  ∀ x, P x → ∀ pre rest : Bytes,
    c.read ⟨pre ++ (c.encode x ++ rest), pre.length⟩ =
      some (x, ⟨pre ++ (c.encode x ++ rest), pre.length + (c.encode x).length⟩)

/-- Whatever is read is admissible, and the bytes consumed are its encoding. -/
def ReadsEncodings {α : Type} (c : Codec α) (P : α → Prop) : Prop :=
  ∀ (r : Reader) (x : α) (r' : Reader), r.offs ≤ r.buf.length → c.read r = some (x, r') →
    P x ∧ ∃ pre rest : Bytes, r = ⟨pre ++ (c.encode x ++ rest), pre.length⟩ ∧
      r' = ⟨pre ++ (c.encode x ++ rest), pre.length + (c.encode x).length⟩

/-- Reading and encoding are inverse to each other. -/
def Lawful {α : Type} (c : Codec α) (P : α → Prop) : Prop := RoundTrips c P ∧ ReadsEncodings c P

theorem lawful_iff {α : Type} (c : Codec α) (P : α → Prop) :
    Lawful c P ↔ c.Inverts P ∧ CanonRd c.read c.encode P := by
  have split : ∀ (r : Reader) (a : Bytes), r.At a → r = ⟨r.buf.take r.offs ++ a, (r.buf.take r.offs).length⟩ := by
    intro r a h
    have h1 := h.1
    cases r with
    | mk b o =>
      simp only at h1 ⊢
      have h2 := h.2
      simp only at h2
      rw [← h2, List.take_append_drop, List.length_take, Nat.min_eq_left h1]
  constructor
  · rintro ⟨h1, h2⟩
    constructor
    · intro x hx rest r hr
      have e := split r _ hr
      have hread := h1 x hx (r.buf.take r.offs) rest
      rw [← e] at hread
      refine ⟨_, hread, ?_, ?_⟩
      · have := Reader.at_mid (r.buf.take r.offs ++ c.encode x) rest
        simpa using this
      · exact (congrArg Reader.buf e).symm
    · intro r r' x ho h
      obtain ⟨hp, pre, rest, e1, e2⟩ := h2 r x r' ho h
      refine ⟨hp, by rw [e1, e2], rest, ?_, ?_⟩
      · rw [e1]; exact Reader.at_mid _ _
      · rw [e2]
        have := Reader.at_mid (pre ++ c.encode x) rest
        simpa using this
  · rintro ⟨h1, h2⟩
    constructor
    · intro x hx pre rest
      obtain ⟨r', e1, e2, e3⟩ := h1 x hx rest _ (Reader.at_mid pre _)
      rw [e1]
      have : r' = ⟨pre ++ (c.encode x ++ rest), pre.length + (c.encode x).length⟩ := by
        refine e2.eq ?_ e3
        have := Reader.at_mid (pre ++ c.encode x) rest
        simpa using this
      rw [this]
    · intro r x r' ho h
      obtain ⟨hp, hb, rest, e1, e2⟩ := h2 r r' x ho h
      have hr := split r _ e1
      refine ⟨hp, r.buf.take r.offs, rest, hr, ?_⟩
      refine e2.eq ?_ ?_
      · have := Reader.at_mid (r.buf.take r.offs ++ c.encode x) rest
        simpa using this
      · rw [hb]
        have := congrArg Reader.buf hr
        exact this

/-- **C36** Integers round-trip (24-bit ones if they are in range). -/
theorem C36_integers :
    Lawful codecU8 (fun _ => True) ∧ Lawful codecU16 (fun _ => True) ∧ Lawful codecU24 (fun v => v.val.toNat < 2 ^ 24) ∧
      Lawful codecU32 (fun _ => True) ∧ Lawful codecU64 (fun _ => True) :=
  ⟨(lawful_iff _ _).2 ⟨u8_inverts, u8_canon⟩, (lawful_iff _ _).2 ⟨u16_inverts, u16_canon⟩,
    (lawful_iff _ _).2 ⟨u24_inverts, u24_canon⟩, (lawful_iff _ _).2 ⟨u32_inverts, u32_canon⟩,
    (lawful_iff _ _).2 ⟨u64_inverts, u64_canon⟩⟩

/-- **C36** Integers are in network byte order. -/
theorem C36_network_order (a : UInt8) (b : UInt16) (c : U24) (d : UInt32) (e : UInt64) :
    ((codecU8.encode a).length = 1 ∧ beNat (codecU8.encode a) = a.toNat) ∧
    ((codecU16.encode b).length = 2 ∧ beNat (codecU16.encode b) = b.toNat) ∧
    ((codecU24.encode c).length = 3 ∧ beNat (codecU24.encode c) = c.val.toNat % 2 ^ 24) ∧
    ((codecU32.encode d).length = 4 ∧ beNat (codecU32.encode d) = d.toNat) ∧
    ((codecU64.encode e).length = 8 ∧ beNat (codecU64.encode e) = e.toNat) := by
  have hb := b.toNat_lt
  have hd := d.toNat_lt
  have he := e.toNat_lt
  refine ⟨⟨rfl, by simp [codecU8, beNat]⟩, ⟨by simp [codecU16], ?_⟩, ⟨by simp [codecU24], ?_⟩, ⟨by simp [codecU32], ?_⟩,
    ⟨by simp [codecU64], ?_⟩⟩
  · simp only [codecU16, beNat_beBytes]; exact Nat.mod_eq_of_lt (by omega)
  · simp only [codecU24, drop_beBytes_succ, beNat_beBytes]
  · simp only [codecU32, beNat_beBytes]; exact Nat.mod_eq_of_lt (by omega)
  · simp only [codecU64, beNat_beBytes]; exact Nat.mod_eq_of_lt (by omega)

/-- **C36** Opaque byte strings with a length prefix round-trip if their length fits the prefix. -/
theorem C36_payloads :
    Lawful codecPayloadU8 (fun v => v.length < 2 ^ 8) ∧ Lawful codecPayloadU16 (fun v => v.length < 2 ^ 16) ∧
      Lawful codecPayloadU24 (fun v => v.length < 2 ^ 24) :=
  ⟨(lawful_iff _ _).2 ⟨payloadU8_inverts, payloadU8_canon⟩, (lawful_iff _ _).2 ⟨payloadU16_inverts, payloadU16_canon⟩,
    (lawful_iff _ _).2 ⟨payloadU24_inverts, payloadU24_canon⟩⟩

/-- **C36** Vectors of any lawful element type whose encodings are not empty round-trip, if their encoding fits the
prefix, and the limit in the case of 24 bits. -/
theorem C36_vectors {α : Type} (c : Codec α) (P : α → Prop) (hc : Lawful c P) (hpos : ∀ x, P x → c.encode x ≠ [])
    (maxBytes : Nat) :
    Lawful ⟨encodeVecU8 c, readVecU8 c⟩ (fun l => (∀ x ∈ l, P x) ∧ (encodeAll c l).length < 2 ^ 8) ∧
    Lawful ⟨encodeVecU16 c, readVecU16 c⟩ (fun l => (∀ x ∈ l, P x) ∧ (encodeAll c l).length < 2 ^ 16) ∧
    Lawful ⟨encodeVecU24 c, readVecU24Limited c maxBytes⟩ (fun l => (∀ x ∈ l, P x) ∧
      (encodeAll c l).length < 2 ^ 24 ∧ (encodeAll c l).length ≤ maxBytes) := by
  obtain ⟨h1, h2⟩ := (lawful_iff c P).1 hc
  exact ⟨(lawful_iff _ _).2 ⟨vecU8_inverts c P h1 hpos, vecU8_canon c P h2⟩,
    (lawful_iff _ _).2 ⟨vecU16_inverts c P h1 hpos, vecU16_canon c P h2⟩,
    (lawful_iff _ _).2 ⟨vecU24_inverts c P h1 hpos maxBytes, vecU24_canon c P h2 maxBytes⟩⟩

/-- **C36** Content types and versions round-trip, unless an `Unknown` holds the number of a known one. -/
theorem C36_enums :
    Lawful codecContentType (fun t => ContentType.ofU8 t.getU8 = t) ∧
      Lawful codecVersion (fun v => ProtocolVersion.ofU16 v.getU16 = v) :=
  ⟨(lawful_iff _ _).2 ⟨contentType_inverts, contentType_canon⟩, (lawful_iff _ _).2 ⟨version_inverts, version_canon⟩⟩

/-- **C36** A byte string that does not fit its prefix is encoded without an error, and what is read back is a proper
prefix of it. -/
theorem C36_truncation (v : Bytes) (h : 2 ^ 16 ≤ v.length) :
    codecPayloadU16.readBytes (codecPayloadU16.encode v) = some (v.take (v.length % 2 ^ 16)) ∧
      codecPayloadU16.readBytes (codecPayloadU16.encode v) ≠ some v := by
  have hr : codecPayloadU16.readBytes (codecPayloadU16.encode v) = some (v.take (v.length % 2 ^ 16)) := by
    have hn : (UInt16.ofNat v.length).toNat = v.length % 2 ^ 16 := UInt16.toNat_ofNat' ..
    have hy : Yields codecPayloadU16.read (codecPayloadU16.encode v) (v.take (v.length % 2 ^ 16))
        (v.drop (v.length % 2 ^ 16)) := by
      refine Yields.bind (u16_inverts _ trivial v) ?_
      conv => arg 2; rw [← List.take_append_drop (v.length % 2 ^ 16) v]
      refine yields_body _ _ ?_
      rw [hn, List.length_take, Nat.min_eq_left]
      exact Nat.mod_le _ _
    obtain ⟨r', h1, -, -⟩ := hy (Reader.init _) (Reader.init_at _)
    simp only [Codec.readBytes, h1, Option.map_some]
  refine ⟨hr, ?_⟩
  rw [hr]
  intro he
  have := congrArg List.length (Option.some.inj he)
  rw [List.length_take] at this
  have := Nat.mod_lt v.length (show 0 < 2 ^ 16 by decide)
  omega

/-- Example for C36: a vector of 16-bit numbers in the middle of a buffer. -/
example : readVecU8 codecU16 ⟨[9, 9, 4, 1, 2, 3, 4, 7], 2⟩ = some ([0x0102, 0x0304], ⟨[9, 9, 4, 1, 2, 3, 4, 7], 7⟩) ∧
    encodeVecU8 codecU16 [0x0102, 0x0304] = [4, 1, 2, 3, 4] ∧
    readVecU8 codecU16 ⟨[3, 1, 2, 3], 0⟩ = none := by decide

/-! ### Deframing -/

/-- **C37** After any history of reads, with any amounts of data delivered, the bytes read from the source are the
frames produced so far (those taken by the owner and those still queued) followed by the pending bytes; the deframer is
out of sync exactly if the pending bytes start with an illegal header. -/
theorem C37_deframed (stream : Bytes) (ops : List DeframeOp) :
    ∃ n, n ≤ stream.length ∧ (deframeRun stream ops).source = stream.drop n ∧
      Deframed (stream.take n) ((deframeRun stream ops).taken ++ (deframeRun stream ops).d.frames)
        (deframeRun stream ops).d.desynced ((deframeRun stream ops).d.buf.take (deframeRun stream ops).d.used) := by
  obtain ⟨n, h1, h2, h3⟩ := deframeRun_inv stream ops
  refine ⟨n, h1, h2, ?_⟩
  have := deframed_split (stream.take n)
  rw [h3.split] at this
  exact this

/-- **C37** The frames, the verdict and the pending bytes are determined by the stream. -/
theorem C37_unique (stream : Bytes) (f f' : List OpaqueMessage) (d d' : Bool) (r r' : Bytes)
    (h : Deframed stream f d r) (h' : Deframed stream f' d' r') : f = f' ∧ d = d' ∧ r = r' := by
  have e := split_deframed h
  rw [split_deframed h'] at e
  simp only [Prod.mk.injEq] at e
  exact ⟨e.1.symm, e.2.1.symm, e.2.2.symm⟩

/-- **C37** Two histories that have read the same number of bytes of the same stream have produced the same frames and
have the same verdict and pending bytes, however the bytes arrived and whenever frames were taken. -/
theorem C37_chunking (stream : Bytes) (ops ops' : List DeframeOp)
    (h : (deframeRun stream ops).source.length = (deframeRun stream ops').source.length) :
    (deframeRun stream ops).taken ++ (deframeRun stream ops).d.frames =
      (deframeRun stream ops').taken ++ (deframeRun stream ops').d.frames ∧
    (deframeRun stream ops).d.desynced = (deframeRun stream ops').d.desynced ∧
    (deframeRun stream ops).d.buf.take (deframeRun stream ops).d.used =
      (deframeRun stream ops').d.buf.take (deframeRun stream ops').d.used := by
  obtain ⟨n, h1, h2, h3⟩ := C37_deframed stream ops
  obtain ⟨n', h1', h2', h3'⟩ := C37_deframed stream ops'
  have : n = n' := by rw [h2, h2'] at h; simp at h; omega
  subst this
  exact C37_unique _ _ _ _ _ _ _ h3 h3'

/-- **C37** As long as the deframer is in sync there is room in its buffer, so a read gets at least one byte if the
source has any. -/
theorem C37_progress (stream : Bytes) (ops : List DeframeOp) (avail : Bytes) (ha : avail ≠ [])
    (hs : (deframeRun stream ops).d.desynced = false) : 0 < ((deframeRun stream ops).d.read avail).2 := by
  obtain ⟨n, h1, h2, h3⟩ := deframeRun_inv stream ops
  obtain ⟨_, hn⟩ := deframerInv_read h3 avail
  rw [hn]
  have hr := splitAll_rest opaqueFront_stable (stream.take n)
  rw [h3.split, hs] at hr
  simp only [Bool.false_eq_true, if_false] at hr
  have hlen := opaqueFront_more_length hr
  rw [List.length_take, h3.len, Nat.min_eq_left h3.used] at hlen
  have := List.length_pos_iff.2 ha
  omega

/-- **C37** Known versions other than 3.x are let through: a record that claims SSL 2.0 or DTLS is a frame. -/
theorem C37_other_versions (payload : Bytes) (hp : payload.length < 18432) (v : ProtocolVersion)
    (hv : v = .sslv2 ∨ v = .dtls10 ∨ v = .dtls12) :
    Deframed (frameBytes ⟨.applicationData, v, payload⟩) [⟨.applicationData, v, payload⟩] false [] := by
  refine ⟨by simp, ?_, by simp, fun _ => .inl (by simp)⟩
  intro m hm
  simp only [List.mem_singleton] at hm
  subst hm
  rcases hv with rfl | rfl | rfl
  · exact ⟨⟨by simp [ContentType.getU8], by simp [ProtocolVersion.getU16], hp, fun _ => rfl⟩, rfl, rfl⟩
  · exact ⟨⟨by simp [ContentType.getU8], by simp [ProtocolVersion.getU16], hp, fun _ => rfl⟩, rfl, rfl⟩
  · exact ⟨⟨by simp [ContentType.getU8], by simp [ProtocolVersion.getU16], hp, fun _ => rfl⟩, rfl, rfl⟩

/-! ### Fragmenting -/

theorem chunksOf_spec (n : Nat) (hn : 0 < n) (fuel : Nat) (l : Bytes) (hf : l.length ≤ fuel) :
    (chunksOf n fuel l).flatten = l ∧ (∀ c ∈ chunksOf n fuel l, 0 < c.length ∧ c.length ≤ n) ∧
      ∀ c ∈ (chunksOf n fuel l).dropLast, c.length = n := by
  induction fuel generalizing l with
  | zero =>
    have : l = [] := List.length_eq_zero_iff.1 (by omega)
    subst this
    simp [chunksOf]
  | succ fuel ih =>
    simp only [chunksOf]
    by_cases hl : l = []
    · simp [hl]
    · rw [if_neg hl]
      have hpos := List.length_pos_iff.2 hl
      obtain ⟨i1, i2, i3⟩ := ih (l.drop n) (by simp; omega)
      refine ⟨?_, ?_, ?_⟩
      · rw [List.flatten_cons, i1, List.take_append_drop]
      · intro c hc
        rcases List.mem_cons.1 hc with rfl | hc
        · simp; omega
        · exact i2 c hc
      · intro c hc
        cases hx : chunksOf n fuel (l.drop n) with
        | nil => rw [hx] at hc; simp at hc
        | cons d ds =>
          rw [hx, List.dropLast_cons_cons] at hc
          rcases List.mem_cons.1 hc with rfl | hc
          · have hd : l.drop n ≠ [] := by
              intro he; rw [he] at hx
              cases fuel <;> simp [chunksOf] at hx
            have := List.length_pos_iff.2 hd
            simp at this ⊢; omega
          · rw [← hx] at hc; exact i3 c hc

/-- **C38** Every accepted maximum yields fragments of at least 27 and at most 16384 bytes. -/
theorem C38_bounds (size : Option Nat) (f : Fragmenter) (h : Fragmenter.new size = some f) :
    27 ≤ f.maxFrag ∧ f.maxFrag ≤ 16384 ∧ (∀ s, size = some s → f.maxFrag + 5 = s) := by
  cases size with
  | none => simp only [Fragmenter.new, Option.some.injEq] at h; subst h; simp
  | some s =>
    simp only [Fragmenter.new] at h
    split at h
    · next hs => simp only [Option.some.injEq] at h; subst h; refine ⟨by simp; omega, by simp; omega, ?_⟩
                 intro s' e; simp only [Option.some.injEq] at e; subst e; simp; omega
    · cases h

/-- **C38** The fragments of a message have its type and version, are at most as long as allowed, all but the last are
as long as allowed, only the fragment of an empty message is empty, and their payloads make up the message. -/
theorem C38_fragment (size : Option Nat) (f : Fragmenter) (h : Fragmenter.new size = some f) (msg : OpaqueMessage) :
    ((f.fragment msg).map (·.payload)).flatten = msg.payload ∧
    (∀ m ∈ f.fragment msg, m.typ = msg.typ ∧ m.version = msg.version ∧ m.payload.length ≤ f.maxFrag ∧
      (m.payload = [] → msg.payload = [])) ∧
    (∀ m ∈ (f.fragment msg).dropLast, m.payload.length = f.maxFrag) ∧ f.fragment msg ≠ [] := by
  obtain ⟨hb, _, _⟩ := C38_bounds size f h
  unfold Fragmenter.fragment
  by_cases hl : msg.payload.length ≤ f.maxFrag
  · rw [if_pos hl]
    refine ⟨by simp, ?_, by simp, by simp⟩
    intro m hm
    simp only [List.mem_singleton] at hm
    subst hm
    exact ⟨rfl, rfl, hl, id⟩
  · rw [if_neg hl]
    obtain ⟨i1, i2, i3⟩ := chunksOf_spec f.maxFrag (by omega) msg.payload.length msg.payload (Nat.le_refl _)
    refine ⟨?_, ?_, ?_, ?_⟩
    · rw [List.map_map]
      have : ((fun m : OpaqueMessage => m.payload) ∘ fun c => (⟨msg.typ, msg.version, c⟩ : OpaqueMessage)) = id := rfl
      rw [this, List.map_id, i1]
    · intro m hm
      obtain ⟨c, hc, rfl⟩ := List.mem_map.1 hm
      obtain ⟨h1, h2⟩ := i2 c hc
      refine ⟨rfl, rfl, h2, fun he => ?_⟩
      simp only at he
      rw [he] at h1; simp at h1
    · intro m hm
      rw [← List.map_dropLast] at hm
      obtain ⟨c, hc, rfl⟩ := List.mem_map.1 hm
      exact i3 c hc
    · intro he
      simp only [List.map_eq_nil_iff] at he
      rw [he] at i1
      rw [← i1] at hl
      simp at hl

/-- **C38** The same for borrowed fragments, except that an empty payload has no fragment. -/
theorem C38_fragment_borrow (size : Option Nat) (f : Fragmenter) (h : Fragmenter.new size = some f) (typ : ContentType)
    (version : ProtocolVersion) (payload : Bytes) :
    ((f.fragmentBorrow typ version payload).map (·.payload)).flatten = payload ∧
    (∀ m ∈ f.fragmentBorrow typ version payload, m.typ = typ ∧ m.version = version ∧ 0 < m.payload.length ∧
      m.payload.length ≤ f.maxFrag) ∧
    ∀ m ∈ (f.fragmentBorrow typ version payload).dropLast, m.payload.length = f.maxFrag := by
  obtain ⟨hb, _, _⟩ := C38_bounds size f h
  unfold Fragmenter.fragmentBorrow
  obtain ⟨i1, i2, i3⟩ := chunksOf_spec f.maxFrag (by omega) payload.length payload (Nat.le_refl _)
  refine ⟨?_, ?_, ?_⟩
  · rw [List.map_map]
    have : ((fun m : OpaqueMessage => m.payload) ∘ fun c => (⟨typ, version, c⟩ : OpaqueMessage)) = id := rfl
    rw [this, List.map_id, i1]
  · intro m hm
    obtain ⟨c, hc, rfl⟩ := List.mem_map.1 hm
    exact ⟨rfl, rfl, i2 c hc⟩
  · intro m hm
    rw [← List.map_dropLast] at hm
    obtain ⟨c, hc, rfl⟩ := List.mem_map.1 hm
    exact i3 c hc

/-- **C38** The fragments of a message, encoded one after the other, deframe to the fragments. -/
theorem C38_deframe (size : Option Nat) (f : Fragmenter) (h : Fragmenter.new size = some f) (msg : OpaqueMessage)
    (htyp : msg.typ.isUnknown = false)
    (hver : msg.version.isIllegal = false ∧ ProtocolVersion.ofU16 msg.version.getU16 = msg.version)
    (hempty : msg.payload = [] → msg.typ = .applicationData) :
    Deframed ((f.fragment msg).map OpaqueMessage.encode).flatten (f.fragment msg) false [] := by
  obtain ⟨-, hmax, _⟩ := C38_bounds size f h
  obtain ⟨-, hm, -, -⟩ := C38_fragment size f h msg
  have htyp' : ContentType.ofU8 msg.typ.getU8 = msg.typ := by
    cases ht : msg.typ with
    | unknown b => rw [ht] at htyp; cases htyp
    | _ => rfl
  have henc : ∀ m ∈ f.fragment msg, m.encode = frameBytes m := by
    intro m hmem
    obtain ⟨_, _, h3, _⟩ := hm m hmem
    simp only [OpaqueMessage.encode, codecContentType, codecU8, codecVersion, codecU16, frameBytes]
    rw [UInt16.toNat_ofNat', Nat.mod_eq_of_lt (by omega)]
    rfl
  refine ⟨by rw [List.append_nil, List.map_congr_left henc], ?_, by simp, fun _ => .inl (by simp)⟩
  intro m hmem
  obtain ⟨h1, h2, h3, h4⟩ := hm m hmem
  refine ⟨⟨?_, ?_, by omega, ?_⟩, by rw [h1]; exact htyp', by rw [h2]; exact hver.2⟩
  · rw [← ofU8_isUnknown, h1, htyp']; exact htyp
  · rw [← ofU16_illegal (UInt16.toNat_lt _), UInt16.ofNat_toNat, h2, hver.2]; exact hver.1
  · intro hz
    have he : m.payload = [] := List.length_eq_zero_iff.1 hz
    rw [h1, hempty (h4 he)]; rfl

/-- Example for C37 and C38: a message of 60 bytes in two fragments, read in pieces of 7 and 100 bytes. -/
example :
    let f : Fragmenter := ⟨59⟩
    let ms := f.fragment ⟨.handshake, .tls12, List.replicate 60 5⟩
    ms.map (·.payload.length) = [59, 1] ∧ Fragmenter.new (some 64) = some f ∧
    (deframeRun (ms.map OpaqueMessage.encode).flatten [.read 7, .pop, .read 100]).d.frames = ms := by
  decide +kernel

/-! ### Joining handshake messages -/

/-- **C39** A fresh joiner that is given records of one version: as long as it does not fail, the payloads are the
complete handshake messages, which parse to the queued messages, followed by the incomplete one that is kept; the counts
add up to the number of queued messages.  If it fails, the payloads given so far are parsed messages followed by one that
is larger than 65535 bytes or does not parse. -/
theorem C39_joined {μ : Type} (parse : Byte → ProtocolVersion → Bytes → Option μ) (vers : ProtocolVersion)
    (records : List OpaqueMessage) (hv : ∀ m ∈ records, m.version = vers) :
    ((joinRun parse records ⟨[], []⟩ 0).2 = some (joinRun parse records ⟨[], []⟩ 0).1.frames.length ∧
      Joined (fun t b => parse t vers b) (records.map (·.payload)).flatten (joinRun parse records ⟨[], []⟩ 0).1.frames
        false (joinRun parse records ⟨[], []⟩ 0).1.buf) ∨
    ((joinRun parse records ⟨[], []⟩ 0).2 = none ∧ ∃ k ≤ records.length,
      Joined (fun t b => parse t vers b) ((records.take k).map (·.payload)).flatten
        (joinRun parse records ⟨[], []⟩ 0).1.frames true (joinRun parse records ⟨[], []⟩ 0).1.buf) := by
  have h0 : splitAll (hsFront parse vers) [] = (([] : List μ), false, ([] : Bytes)) :=
    splitAll_more (hs_short parse vers (by simp))
  rcases joinRun_spec parse vers records hv ⟨[], []⟩ [] 0 h0 with ⟨h1, h2, h3⟩ | ⟨h1, k, hk, h2⟩
  · refine .inl ⟨by rw [h1]; simp, ?_⟩
    have := joined_split parse vers ([] ++ (records.map (·.payload)).flatten)
    rw [h3] at this
    exact this
  · refine .inr ⟨h1, k, hk, ?_⟩
    have := joined_split parse vers ([] ++ ((records.take k).map (·.payload)).flatten)
    rw [h2] at this
    exact this

/-- **C39** The messages, the verdict and the rest are determined by the stream. -/
theorem C39_unique {μ : Type} (parse : Byte → Bytes → Option μ) (stream : Bytes) (m m' : List μ) (b b' : Bool)
    (r r' : Bytes) (h : Joined parse stream m b r) (h' : Joined parse stream m' b' r') : m = m' ∧ b = b' ∧ r = r' := by
  have e := split_joined (fun t (_ : ProtocolVersion) x => parse t x) .tls12 h
  rw [split_joined (fun t (_ : ProtocolVersion) x => parse t x) .tls12 h'] at e
  simp only [Prod.mk.injEq] at e
  exact ⟨e.1.symm, e.2.1.symm, e.2.2.symm⟩

/-- **C39** Two ways of cutting the same handshake stream into records of one version: either both fail, with the same
messages queued before, or both yield the same messages, the same count and keep the same rest. -/
theorem C39_fragmentation {μ : Type} (parse : Byte → ProtocolVersion → Bytes → Option μ) (vers : ProtocolVersion)
    (records records' : List OpaqueMessage) (hv : ∀ m ∈ records, m.version = vers)
    (hv' : ∀ m ∈ records', m.version = vers)
    (h : (records.map (·.payload)).flatten = (records'.map (·.payload)).flatten) :
    (joinRun parse records ⟨[], []⟩ 0).1.frames = (joinRun parse records' ⟨[], []⟩ 0).1.frames ∧
    (joinRun parse records ⟨[], []⟩ 0).2 = (joinRun parse records' ⟨[], []⟩ 0).2 ∧
    ((joinRun parse records ⟨[], []⟩ 0).2 ≠ none →
      (joinRun parse records ⟨[], []⟩ 0).1.buf = (joinRun parse records' ⟨[], []⟩ 0).1.buf) := by
  have hs := hsFront_stable parse vers
  have key : ∀ records : List OpaqueMessage, (∀ m ∈ records, m.version = vers) →
      (joinRun parse records ⟨[], []⟩ 0).1.frames =
        (splitAll (hsFront parse vers) (records.map (·.payload)).flatten).1 ∧
      (joinRun parse records ⟨[], []⟩ 0).2 =
        (if (splitAll (hsFront parse vers) (records.map (·.payload)).flatten).2.1 then none
          else some (splitAll (hsFront parse vers) (records.map (·.payload)).flatten).1.length) ∧
      ((joinRun parse records ⟨[], []⟩ 0).2 ≠ none → (joinRun parse records ⟨[], []⟩ 0).1.buf =
        (splitAll (hsFront parse vers) (records.map (·.payload)).flatten).2.2) := by
    intro records hv
    rcases C39_joined parse vers records hv with ⟨h1, h2⟩ | ⟨h1, k, hk, h2⟩
    · have e := split_joined parse vers h2
      rw [e]
      exact ⟨rfl, by simpa using h1, fun _ => rfl⟩
    · have e := split_joined parse vers h2
      have hsplit : (records.map (·.payload)).flatten =
          ((records.take k).map (·.payload)).flatten ++ ((records.drop k).map (·.payload)).flatten := by
        rw [← List.flatten_append, ← List.map_append, List.take_append_drop]
      rw [hsplit, splitAll_append hs, e]
      simp only [if_true]
      exact ⟨trivial, h1, fun hne => absurd h1 hne⟩
  obtain ⟨a1, a2, a3⟩ := key records hv
  obtain ⟨b1, b2, b3⟩ := key records' hv'
  rw [h] at a1 a2 a3
  exact ⟨a1.trans b1.symm, a2.trans b2.symm, fun hne => (a3 hne).trans (b3 (by rw [b2, ← a2]; exact hne)).symm⟩

/-- Example for C39: two messages and the start of a third in one record, and cut in the middle of a header. -/
example :
    let parse := fun (t : Byte) (_ : ProtocolVersion) (b : Bytes) => if t = 9 then none else some (t, b)
    let r1 := joinRun parse [⟨.handshake, .tls12, [1, 0, 0, 2, 7, 8, 2, 0, 0, 0, 3, 0]⟩] ⟨[], []⟩ 0
    let r2 := joinRun parse [⟨.handshake, .tls12, [1, 0]⟩, ⟨.handshake, .tls12, [0, 2, 7, 8, 2, 0, 0, 0, 3, 0]⟩] ⟨[], []⟩ 0
    r1.1.frames = [(1, [7, 8]), (2, [])] ∧ r1.1.buf = [3, 0] ∧ r1.2 = some 2 ∧
      r2.1.frames = r1.1.frames ∧ r2.1.buf = r1.1.buf ∧ r2.2 = some 2 ∧
      (joinRun parse [⟨.handshake, .tls12, [1, 0, 0, 0, 9, 0, 0, 0]⟩] ⟨[], []⟩ 0).2 = none := by decide

end Tlsn
