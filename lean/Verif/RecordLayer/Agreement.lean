import Verif.RecordLayer.Complete

/-! # C59: leader and follower commit to the same records -/

namespace Tlsn

/-- The follower was given the leader's record, without the plaintext of application data. -/
structure SameSending (l f : Sending) : Prop where
  seq : f.seq = l.seq
  typ : f.typ = l.typ
  version : f.version = l.version
  len : f.len = l.len
  plaintext : f.plaintext = if l.typ = .applicationData then none else l.plaintext

/-- What a follower's transcript record must say about a leader's record. -/
structure SameRecord (l f : Record) : Prop where
  seq : f.seq = l.seq
  typ : f.typ = l.typ
  nonce : f.nonce = l.nonce
  ciphertext : f.ciphertext = l.ciphertext
  plaintext : f.plaintext = if l.typ = .applicationData then none else l.plaintext
  known : l.plaintext.isSome = true

theorem accepted_len {k : SessionFns} {peer : Nat → Bytes} (cs : List RlCall) (r : RecordLayer) (n : Nat) :
    ∀ s ∈ accepted n (r.history k peer cs), ∀ p, s.plaintext = some p → p.length = s.len := by
  induction cs generalizing r n with
  | nil => simp [RecordLayer.history, accepted]
  | cons c cs ih =>
    rw [history_cons, accepted_cons]
    intro s hs
    rcases List.mem_append.1 hs with hs | hs
    · cases c with
      | pushEncrypt t v l q =>
        intro p hp
        simp only [RecordLayer.step, RecordLayer.pushEncrypt, EncryptOp.new] at hs
        by_cases h1 : r.encryptBuffer.length ≥ maxBufferSize
        · simp [h1, RlResult.ofExcept, accepted] at hs
        by_cases h2 : usizeAdd r.sent l > r.maxSent
        · simp [h1, h2, RlResult.ofExcept, accepted] at hs
        rw [if_neg h1, if_neg h2] at hs
        by_cases h3 : (q.any fun p => decide (p.length ≠ l)) = true
        · rw [if_pos h3] at hs; simp [RlResult.ofExcept, accepted] at hs
        rw [if_neg h3] at hs
        by_cases h4 : modeOf t = .pub ∧ q = none
        · rw [if_pos h4] at hs; simp [RlResult.ofExcept, accepted] at hs
        rw [if_neg h4] at hs
        simp only [RlResult.ofExcept, accepted, List.mem_singleton] at hs
        subst hs
        simp only at hp
        subst hp
        simpa using h3
      | pushDecrypt t v nc ct tg => simp [accepted] at hs
      | flush e d => simp [accepted] at hs
      | startTraffic => simp [accepted] at hs
      | nextEncrypted => simp [accepted] at hs
      | nextDecrypted => simp [accepted] at hs
      | commit e => simp [accepted] at hs
    · exact ih _ _ s hs

theorem sameSending_record {k : SessionFns} {pl pf : Nat → Bytes} {l f : Sending} (h : SameSending l f)
    (hk : l.plaintext.isSome = true) (hlen : ∀ p, l.plaintext = some p → p.length = l.len)
    (hp : ∀ p, l.plaintext = some p → pf l.seq = p) :
    SameRecord (l.inTranscript k.client pl .leader) (f.inTranscript k.client pf .follower) := by
  obtain ⟨h1, h2, h3, h4, h5⟩ := h
  obtain ⟨p, hp'⟩ := Option.isSome_iff_exists.1 hk
  have e1 := hlen p hp'
  have e2 := hp p hp'
  have hcont : f.content pf = l.content pl := by
    simp only [Sending.content, h5, hp', h1, h4]
    split
    · simp [e2, e1]
    · simp
  refine ⟨h1, h2, ?_, ?_, h5, hk⟩
  · simp [Sending.inTranscript, Sending.nonce, h1]
  · simp [Sending.inTranscript, Sending.ciphertext, hcont, Sending.nonce, h1, h4]

theorem sameReceiving_record (g : AeadFn) (s : Receiving) :
    SameRecord (s.inTranscript g .leader) (s.inTranscript g .follower) := by
  refine ⟨rfl, rfl, rfl, rfl, ?_, ?_⟩
  · by_cases h : s.typ = .applicationData <;> simp [Receiving.inTranscript, Receiving.plaintext, h]
  · simp [Receiving.inTranscript, Receiving.plaintext]

/-- **C59** The follower accepted for sending the leader's records, in the leader's order, without the
plaintexts of application data, and accepted the same received records.  The joint encryption of a record
uses the leader's plaintext.  Whatever flushes and pops each of them made in between, if nothing failed
the committed transcripts describe the same records. -/
theorem C59_agreement (k : SessionFns) (peerL peerF : Nat → Bytes) (otpL otpF : Bytes)
    (sr rr sl ro rl sr' rr' sl' ro' rl' : Nat)
    (callsL callsF : List RlCall) (hcl : callsL.length ≤ 2 ^ 64) (hcf : callsF.length ≤ 2 ^ 64)
    (envL envF : FlushEnv) (rL rF : RecordLayer) (sentL recvL sentF recvF : List Record) :
    let l := RecordLayer.online .leader otpL sr rr sl ro rl
    let f := RecordLayer.online .follower otpF sr' rr' sl' ro' rl'
    let hL := l.history k peerL callsL
    let hF := f.history k peerF callsF
    (∀ x ∈ hL, lossless x = true) → (∀ x ∈ hF, lossless x = true) →
    List.Forall₂ SameSending (accepted 0 hL) (accepted 0 hF) →
    (∀ s ∈ accepted 0 hL, ∃ p, s.plaintext = some p ∧ peerF s.seq = p) →
    incoming 0 hF = incoming 0 hL →
    (l.run k peerL callsL).1.commit k envL = (rL, .ok (sentL, recvL)) →
    (f.run k peerF callsF).1.commit k envF = (rF, .ok (sentF, recvF)) →
    List.Forall₂ SameRecord sentL sentF ∧ List.Forall₂ SameRecord recvL recvF := by
  intro l f hL hF h1 h2 h3 h4 h5 h6 h7
  obtain ⟨-, -, a⟩ := C29_commit k peerL .leader otpL sr rr sl ro rl callsL hcl envL rL sentL recvL h6
  obtain ⟨-, -, b⟩ := C29_commit k peerF .follower otpF sr' rr' sl' ro' rl' callsF hcf envF rF sentF recvF h7
  obtain ⟨rfl, rfl⟩ := a h1
  obtain ⟨rfl, rfl⟩ := b h2
  have hlen := accepted_len (k := k) (peer := peerL) callsL l 0
  constructor
  · change List.Forall₂ SameRecord ((accepted 0 hL).map _) ((accepted 0 hF).map _)
    change ∀ s ∈ accepted 0 hL, _ at hlen
    generalize accepted 0 hL = A at h3 h4 hlen
    generalize accepted 0 hF = B at h3
    induction h3 with
    | nil => exact .nil
    | @cons x y xs ys hxy _ ih =>
      obtain ⟨p, hp, hq⟩ := h4 x (by simp)
      refine .cons (sameSending_record hxy (by simp [hp]) (hlen x (by simp)) ?_)
        (ih (fun s hs => h4 s (by simp [hs])) (fun s hs => hlen s (by simp [hs])))
      intro p' hp'
      rw [hp] at hp'
      cases hp'
      exact hq
  · change List.Forall₂ SameRecord ((incoming 0 hL).map _) ((incoming 0 hF).map _)
    rw [h5]
    generalize incoming 0 hL = I
    induction I with
    | nil => exact .nil
    | cons x xs ih => exact .cons (sameReceiving_record k.server x) ih

/-- The follower's calls for `demoCalls`: other flushes, no pops. -/
def demoCallsF : List RlCall :=
  [.pushEncrypt .handshake .tls12 3 (some [1, 2, 3]), .flush goodEnv false,
   .pushDecrypt .handshake .tls12 (beBytes 8 77) [3, 1] (List.replicate 16 8), .flush goodEnv true,
   .pushDecrypt .applicationData .tls12 (beBytes 8 78) [5] (List.replicate 16 8),
   .pushEncrypt .applicationData .tls12 2 none, .flush goodEnv false]

/-- Example for C59: the hypotheses hold for these two histories. -/
example :
    let peerF : Nat → Bytes := fun n => if n = 0 then [1, 2, 3] else [9, 9]
    let l := RecordLayer.online .leader (List.replicate 40 1) 5 5 40 40 80
    let f := RecordLayer.online .follower [] 5 5 40 40 80
    let hL := l.history demoFns (fun _ => []) demoCalls
    let hF := f.history demoFns peerF demoCallsF
    (∀ x ∈ hL, lossless x = true) ∧ (∀ x ∈ hF, lossless x = true) ∧
    List.Forall₂ SameSending (accepted 0 hL) (accepted 0 hF) ∧
    (∀ s ∈ accepted 0 hL, ∃ p, s.plaintext = some p ∧ peerF s.seq = p) ∧
    incoming 0 hF = incoming 0 hL ∧
    (((l.run demoFns (fun _ => []) demoCalls).1.commit demoFns goodEnv).2 matches .ok _) ∧
    (((f.run demoFns peerF demoCallsF).1.commit demoFns goodEnv).2 matches .ok _) := by
  intro peerF l f hL hF
  have e1 : accepted 0 hL = [⟨0, .handshake, .tls12, 3, some [1, 2, 3]⟩,
    ⟨1, .applicationData, .tls12, 2, some [9, 9]⟩] := by decide +kernel
  have e2 : accepted 0 hF = [⟨0, .handshake, .tls12, 3, some [1, 2, 3]⟩,
    ⟨1, .applicationData, .tls12, 2, none⟩] := by decide +kernel
  refine ⟨by decide +kernel, by decide +kernel, ?_, ?_, by decide +kernel, by decide +kernel,
    by decide +kernel⟩
  · rw [e1, e2]
    exact .cons ⟨rfl, rfl, rfl, rfl, rfl⟩ (.cons ⟨rfl, rfl, rfl, rfl, rfl⟩ .nil)
  · rw [e1]
    simp [peerF]

/-! ## C60: content types -/

/-- The content type is what a reader of the wire byte makes of it. -/
def ContentType.Parsed (t : ContentType) : Prop := t = ContentType.ofU8 t.getU8

/-- **C60** (partial: only for record types as read from the wire; see `C60_type_alias` for the rest) If
all received records have types read from the wire, then of the records the follower commits to, exactly
those with application data's wire byte are treated as application data: their plaintext is hidden from
the follower, and of all others it is known. -/
theorem C60_wire_type_partial (k : SessionFns) (peer : Nat → Bytes) (otp : Bytes) (sr rr sl ro rl : Nat)
    (calls : List RlCall) (hc : calls.length ≤ 2 ^ 64) (env : FlushEnv) (r' : RecordLayer)
    (sent recv : List Record) :
    let r := RecordLayer.online .follower otp sr rr sl ro rl
    let h := r.history k peer calls
    (∀ s ∈ incoming 0 h, s.typ.Parsed) →
    (r.run k peer calls).1.commit k env = (r', .ok (sent, recv)) →
    ∀ x ∈ recv, (x.typ.getU8 = 0x17 ↔ x.typ = .applicationData) ∧
      (x.typ.getU8 = 0x17 ↔ x.plaintext = none) := by
  intro r h hp hcm x hx
  obtain ⟨-, a, -⟩ := C29_commit k peer .follower otp sr rr sl ro rl calls hc env r' sent recv hcm
  obtain ⟨s, hs, rfl⟩ := List.mem_map.1 (a.subset hx)
  have hpt := hp s hs
  have key : s.typ.getU8 = 0x17 ↔ s.typ = .applicationData := by
    constructor
    · intro h; rw [ContentType.Parsed, h] at hpt; rw [hpt]; decide
    · intro h; rw [h]; rfl
  refine ⟨key, ?_⟩
  change s.typ.getU8 = 0x17 ↔ s.plaintext k.server .follower = none
  rw [key]
  by_cases h : s.typ = .applicationData <;> simp [Receiving.plaintext, h]

/-- Example for C60: types of the records of the examples are as read from the wire. -/
example : ∀ s ∈ incoming 0 ((RecordLayer.online .follower [] 5 5 40 40 80).history demoFns (fun _ => [])
    demoCallsF), s.typ.Parsed := by
  have : incoming 0 ((RecordLayer.online .follower [] 5 5 40 40 80).history demoFns (fun _ => [])
      demoCallsF) = [⟨0, .handshake, .tls12, beBytes 8 77, [3, 1], List.replicate 16 8⟩,
        ⟨1, .applicationData, .tls12, beBytes 8 78, [5], List.replicate 16 8⟩] := by decide +kernel
  rw [this]
  intro s hs
  simp only [List.mem_cons, List.not_mem_nil, or_false] at hs
  rcases hs with rfl | rfl <;> (simp only [ContentType.Parsed]; decide)

/-- **C60**, what is missing: the follower takes the type from the leader's message, where
`Unknown(0x17)` is a type of its own.  For every received application data record there is one of this
type that is authentic exactly if the first is, and that the follower commits to as a record that is not
application data. -/
theorem C60_type_alias (k : SessionFns) (s : Receiving) (hs : s.typ = .applicationData) :
    let t : Receiving := { s with typ := .unknown 0x17 }
    (t.Authentic k.server ↔ s.Authentic k.server) ∧ t.typ ≠ .applicationData ∧
      (t.inTranscript k.server .follower).plaintext =
        some (xorBytes s.ciphertext (k.server.keystream s.nonce s.ciphertext.length)) := by
  intro t
  refine ⟨?_, by simp [t], by simp [t, Receiving.inTranscript, Receiving.plaintext]⟩
  simp [t, Receiving.Authentic, makeTls12Aad, hs, ContentType.getU8]

/-- The follower accepts such a record and commits to it. -/
theorem C60_alias_committed :
    let r := RecordLayer.online .follower [] 5 5 40 40 80
    let calls : List RlCall := [.pushDecrypt (.unknown 0x17) .tls12 (beBytes 8 78) [5] (List.replicate 16 8),
      .flush goodEnv false]
    ((r.run demoFns (fun _ => []) calls).1.commit demoFns goodEnv).2 =
      .ok ([], [⟨0, .unknown 0x17, some [7], beBytes 8 78, [5], some (List.replicate 16 8)⟩]) := by
  decide +kernel

/-! ## The keystream -/

theorem flatMap_block_get (g : Nat → Vector Byte 16) (n i : Nat) (hi : i < 16 * n) :
    ((List.range n).flatMap fun j => (g j).toList)[i]? =
      some ((g (i / 16))[i % 16]'(Nat.mod_lt _ (by decide))) := by
  induction n generalizing g i with
  | zero => omega
  | succ n ih =>
    rw [List.range_succ_eq_map, List.flatMap_cons, List.flatMap_map]
    by_cases h : i < 16
    · rw [List.getElem?_append_left (by simpa using h)]
      have h1 : i / 16 = 0 := by omega
      have h2 : i % 16 = i := by omega
      rw [List.getElem?_eq_getElem (by simpa using h)]
      simp only [h1, h2, Vector.getElem_toList]
    · rw [List.getElem?_append_right (by simp; omega)]
      have := ih (fun j => g (j + 1)) (i - 16) (by omega)
      simp only [Vector.length_toList]
      rw [this]
      have h1 : (i - 16) / 16 + 1 = i / 16 := by omega
      have h2 : (i - 16) % 16 = i % 16 := by omega
      simp only [h1, h2]

/-- **C27** Byte `i` of the keystream of a record comes from the block with the record's nonce and the
counter `2 + i / 16`; the block with the counter 1 masks the tag.  So `C27_nonce_counter_once` says that no
block of keystream is used twice. -/
theorem C27_keystream_blocks (f : AeadFn) (nonce aad ct : Bytes) (len : Nat) :
    (f.keystream nonce len).length = len ∧
    (∀ i, i < len → (f.keystream nonce len)[i]? =
      some ((f.block nonce (2 + i / 16))[i % 16]'(Nat.mod_lt _ (by decide)))) ∧
    ∀ i, (hi : i < 16) → (f.tag nonce aad ct)[i]? =
      some ((f.block nonce 1)[i] ^^^ (f.ghash (buildGhashData aad ct))[i]) := by
  have hle := divCeil16_le len
  refine ⟨keystream_length f nonce len, fun i hi => ?_, fun i hi => ?_⟩
  · rw [AeadFn.keystream, List.getElem?_take_of_lt hi]
    exact flatMap_block_get (fun j => f.block nonce (2 + j)) _ _ (by omega)
  · simp only [AeadFn.tag, xorBytes]
    rw [List.getElem?_eq_getElem (by simpa using hi), List.getElem_zipWith]
    simp

end Tlsn
