import Verif.Tls.CodecLemmas
import Verif.Tls.Framing

/-! # Lemmas about the handshake joiner -/

namespace Tlsn

variable {μ : Type} (parse : Byte → ProtocolVersion → Bytes → Option μ) (vers : ProtocolVersion)

/-- The verdict on the front of the joiner's buffer. -/
def hsFront (b : Bytes) : FrontStep μ :=
  match bufContainsMessage b with
  | .tooLarge => .bad
  | .needsMoreData => .more
  | .oneMessage =>
    match readHandshake parse vers (Reader.init b) with
    | none => .bad
    | some (m, rd) => .msg m rd.used

theorem hs_short {b : Bytes} (h : b.length < 4) : hsFront parse vers b = .more := by
  unfold hsFront bufContainsMessage
  rw [if_pos h]

theorem hs_header {b : Bytes} (h : 4 ≤ b.length) :
    ∃ t len body, len < 2 ^ 24 ∧ b = t :: (beBytes 3 len ++ body) := by
  match b, h with
  | t :: a :: b :: c :: body, _ =>
    refine ⟨t, beNat [a, b, c], body, by simpa using beNat_lt [a, b, c], ?_⟩
    have h1 := beBytes_beNat [a, b, c]
    simp only [List.length_cons, List.length_nil] at h1
    rw [h1]
    rfl

theorem contains_header (t : Byte) {len : Nat} (hl : len < 2 ^ 24) (body : Bytes) :
    bufContainsMessage (t :: (beBytes 3 len ++ body)) =
      if 65535 < len then .tooLarge else if len ≤ body.length then .oneMessage else .needsMoreData := by
  unfold bufContainsMessage
  rw [if_neg (by simp)]
  have e1 : ((t :: (beBytes 3 len ++ body)).take 4).drop 1 = beBytes 3 len := by
    simp [List.take_left']
  have e2 : (t :: (beBytes 3 len ++ body)).drop 4 = body := by
    rw [List.drop_succ_cons, List.drop_left' (by simp)]
  rw [e1, e2, u24_decode_eq (by simp), beNat_beBytes, Nat.mod_eq_of_lt (by simpa using hl)]
  simp only
  have e3 : (UInt32.ofNat len).toNat = len := by rw [UInt32.toNat_ofNat', Nat.mod_eq_of_lt (by omega)]
  have e4 : UInt32.ofNat len > 0xffff ↔ 65535 < len := by
    show _ < _ ↔ _
    rw [UInt32.lt_iff_toNat_lt, e3]; rfl
  rw [e3]
  by_cases h : 65535 < len
  · rw [if_pos h, if_pos (e4.2 h)]
  · rw [if_neg h, if_neg (fun hc => h (e4.1 hc))]

theorem hs_read (t : Byte) (body more : Bytes) (hl : body.length < 2 ^ 24) :
    readHandshake parse vers (Reader.init (hsBytes (t, body) ++ more)) =
      (parse t vers body).map fun m => (m, ⟨hsBytes (t, body) ++ more, (hsBytes (t, body)).length⟩) := by
  have h0 : (Reader.init (hsBytes (t, body) ++ more)).At (t :: (beBytes 3 body.length ++ (body ++ more))) := by
    have := Reader.init_at (hsBytes (t, body) ++ more)
    simpa [hsBytes] using this
  obtain ⟨r1, e1, a1, b1⟩ := u8_inverts t trivial (beBytes 3 body.length ++ (body ++ more)) _ h0
  have h3 : (UInt32.ofNat body.length).toNat = body.length := by
    rw [UInt32.toNat_ofNat', Nat.mod_eq_of_lt (by omega)]
  obtain ⟨r2, e2, a2, b2⟩ := u24_inverts ⟨UInt32.ofNat body.length⟩ (by
    show (UInt32.ofNat body.length).toNat < 2 ^ 24
    rw [h3]; exact hl) (body ++ more) r1 (by
      show r1.At ((beBytes 4 (UInt32.ofNat body.length).toNat).drop 1 ++ _)
      rw [h3, drop_beBytes_succ]; exact a1)
  obtain ⟨r3, e3, a3, b3⟩ := yields_body body more rfl r2 a2
  have hbuf : r3.buf = hsBytes (t, body) ++ more := by rw [b3, b2, b1]; rfl
  have hr3 : r3 = ⟨hsBytes (t, body) ++ more, (hsBytes (t, body)).length⟩ :=
    a3.eq (Reader.at_mid _ _) hbuf
  show (codecU8.read (Reader.init (hsBytes (t, body) ++ more))).bind (fun p => (codecU24.read p.2).bind fun q =>
    (readBody q.1.val.toNat q.2).bind fun w => Rd.lift (parse p.1 vers w.1) w.2) = _
  rw [e1]
  simp only [Option.bind_some]
  rw [e2]
  simp only [Option.bind_some, h3]
  rw [e3]
  simp only [Option.bind_some, Rd.lift, hr3]

theorem hsFront_header (t : Byte) {len : Nat} (hl : len < 2 ^ 24) (body : Bytes) :
    hsFront parse vers (t :: (beBytes 3 len ++ body)) =
      if 65535 < len then .bad
      else if len ≤ body.length then
        match parse t vers (body.take len) with
        | none => .bad
        | some m => .msg m (4 + len)
      else .more := by
  unfold hsFront
  rw [contains_header t hl body]
  by_cases h1 : 65535 < len
  · rw [if_pos h1, if_pos h1]
  · rw [if_neg h1, if_neg h1]
    by_cases h2 : len ≤ body.length
    · rw [if_pos h2, if_pos h2]
      simp only
      have hlen : (body.take len).length = len := by simp; omega
      have hb : t :: (beBytes 3 len ++ body) = hsBytes (t, body.take len) ++ body.drop len := by
        simp only [hsBytes, hlen, List.cons_append, List.append_assoc, List.take_append_drop]
      rw [hb, hs_read parse vers t _ _ (by omega)]
      cases parse t vers (body.take len) with
      | none => rfl
      | some m =>
        simp only [Option.map_some, Reader.used, hsBytes, List.length_cons, List.length_append, beBytes_length, hlen]
        congr 1
        omega
    · rw [if_neg h2, if_neg h2]

theorem hsFront_stable : FrontStable (hsFront parse vers) where
  msg b m n h := by
    by_cases h4 : b.length < 4
    · rw [hs_short parse vers h4] at h; cases h
    · obtain ⟨t, len, body, hl, rfl⟩ := hs_header (Nat.le_of_not_lt h4)
      rw [hsFront_header parse vers t hl] at h
      by_cases h1 : 65535 < len
      · rw [if_pos h1] at h; cases h
      · rw [if_neg h1] at h
        by_cases h2 : len ≤ body.length
        · rw [if_pos h2] at h
          cases hp : parse t vers (body.take len) with
          | none => rw [hp] at h; cases h
          | some m' =>
            rw [hp] at h
            simp only [FrontStep.msg.injEq] at h
            obtain ⟨rfl, rfl⟩ := h
            refine ⟨by omega, by simp; omega, fun c => ?_⟩
            have : t :: (beBytes 3 len ++ body) ++ c = t :: (beBytes 3 len ++ (body ++ c)) := by simp
            rw [this, hsFront_header parse vers t hl, if_neg h1, if_pos (by simp; omega),
              List.take_append_of_le_length h2, hp]
        · rw [if_neg h2] at h; cases h
  bad b h c := by
    by_cases h4 : b.length < 4
    · rw [hs_short parse vers h4] at h; cases h
    · obtain ⟨t, len, body, hl, rfl⟩ := hs_header (Nat.le_of_not_lt h4)
      rw [hsFront_header parse vers t hl] at h
      have : t :: (beBytes 3 len ++ body) ++ c = t :: (beBytes 3 len ++ (body ++ c)) := by simp
      rw [this, hsFront_header parse vers t hl]
      by_cases h1 : 65535 < len
      · rw [if_pos h1]
      · rw [if_neg h1] at h ⊢
        by_cases h2 : len ≤ body.length
        · rw [if_pos h2] at h
          rw [if_pos (by simp; omega), List.take_append_of_le_length h2]
          cases hp : parse t vers (body.take len) with
          | none => rfl
          | some m => rw [hp] at h; cases h
        · rw [if_neg h2] at h; cases h

theorem hsBytes_length (m : Byte × Bytes) : (hsBytes m).length = 4 + m.2.length := by
  simp [hsBytes]; omega

theorem hsFront_hsBytes (t : Byte) (body more : Bytes) (hl : body.length ≤ 65535) :
    hsFront parse vers (hsBytes (t, body) ++ more) =
      match parse t vers body with
      | none => .bad
      | some m => .msg m (4 + body.length) := by
  have : hsBytes (t, body) ++ more = t :: (beBytes 3 body.length ++ (body ++ more)) := by simp [hsBytes]
  rw [this, hsFront_header parse vers t (by omega), if_neg (by omega), if_pos (by simp), List.take_left]

/-- The specification holds of the stream split message by message. -/
theorem joined_split (b : Bytes) :
    Joined (fun t body => parse t vers body) b (splitAll (hsFront parse vers) b).1
      (splitAll (hsFront parse vers) b).2.1 (splitAll (hsFront parse vers) b).2.2 := by
  induction b using split_induction (hsFront_stable parse vers) with
  | hmore b h =>
    rw [splitAll_more h]
    refine ⟨[], by simp, by simp, rfl, by simp, fun _ => ?_⟩
    by_cases h4 : b.length < 4
    · exact .inl h4
    · obtain ⟨t, len, body, hl, rfl⟩ := hs_header (Nat.le_of_not_lt h4)
      rw [hsFront_header parse vers t hl] at h
      by_cases h1 : 65535 < len
      · rw [if_pos h1] at h; cases h
      · rw [if_neg h1] at h
        by_cases h2 : len ≤ body.length
        · rw [if_pos h2] at h
          cases hp : parse t vers (body.take len) <;> rw [hp] at h <;> cases h
        · exact .inr ⟨t, len, body, by omega, rfl, by omega⟩
  | hbad b h =>
    rw [splitAll_bad h]
    refine ⟨[], by simp, by simp, rfl, fun _ => ?_, by simp⟩
    by_cases h4 : b.length < 4
    · rw [hs_short parse vers h4] at h; cases h
    · obtain ⟨t, len, body, hl, rfl⟩ := hs_header (Nat.le_of_not_lt h4)
      rw [hsFront_header parse vers t hl] at h
      by_cases h1 : 65535 < len
      · exact .inl ⟨t, len, body, hl, rfl, h1⟩
      · rw [if_neg h1] at h
        by_cases h2 : len ≤ body.length
        · rw [if_pos h2] at h
          have hlen : (body.take len).length = len := by simp; omega
          refine .inr ⟨t, body.take len, body.drop len, by omega, ?_, ?_⟩
          · simp only [hsBytes, hlen, List.cons_append, List.append_assoc, List.take_append_drop]
          · cases hp : parse t vers (body.take len) with
            | none => exact hp
            | some m => rw [hp] at h; cases h
        · rw [if_neg h2] at h; cases h
  | hmsg b m k h ih =>
    rw [splitAll_msg (hsFront_stable parse vers) h]
    obtain ⟨raw, s1, s2, s3, s4, s5⟩ := ih
    by_cases h4 : b.length < 4
    · rw [hs_short parse vers h4] at h; cases h
    · obtain ⟨t, len, body, hl, rfl⟩ := hs_header (Nat.le_of_not_lt h4)
      rw [hsFront_header parse vers t hl] at h
      by_cases h1 : 65535 < len
      · rw [if_pos h1] at h; cases h
      · rw [if_neg h1] at h
        by_cases h2 : len ≤ body.length
        · rw [if_pos h2] at h
          have hlen : (body.take len).length = len := by simp; omega
          cases hp : parse t vers (body.take len) with
          | none => rw [hp] at h; cases h
          | some m' =>
            rw [hp] at h
            simp only [FrontStep.msg.injEq] at h
            obtain ⟨rfl, rfl⟩ := h
            refine ⟨(t, body.take len) :: raw, ?_, ?_, ?_, s4, s5⟩
            · simp only [List.map_cons, List.flatten_cons, List.append_assoc]
              rw [← s1]
              have hb : t :: (beBytes 3 len ++ body) = hsBytes (t, body.take len) ++ body.drop len := by
                simp only [hsBytes, hlen, List.cons_append, List.append_assoc, List.take_append_drop]
              conv => lhs; rw [hb]
              congr 1
              rw [hb, List.drop_left' (by rw [hsBytes_length]; simp [hlen])]
            · intro x hx
              rcases List.mem_cons.1 hx with rfl | hx
              · simp only; omega
              · exact s2 x hx
            · simp only [List.map_cons, s3, hp]
        · rw [if_neg h2] at h; cases h

theorem split_joined {b : Bytes} {msgs : List μ} {bad : Bool} {rest : Bytes}
    (h : Joined (fun t body => parse t vers body) b msgs bad rest) :
    splitAll (hsFront parse vers) b = (msgs, bad, rest) := by
  obtain ⟨raw, s1, s2, s3, s4, s5⟩ := h
  induction raw generalizing b msgs with
  | nil =>
    have hm : msgs = [] := by cases msgs with
      | nil => rfl
      | cons a l => simp at s3
    subst hm
    simp at s1
    subst s1
    cases bad with
    | true =>
      refine splitAll_bad ?_
      rcases s4 rfl with ⟨t, len, body, hl, rfl, hgt⟩ | ⟨t, body, more, hl, rfl, hp⟩
      · rw [hsFront_header parse vers t hl, if_pos hgt]
      · rw [hsFront_hsBytes parse vers t body more hl, show parse t vers body = none from hp]
    | false =>
      refine splitAll_more ?_
      rcases s5 rfl with h | ⟨t, len, body, hl, rfl, hlt⟩
      · exact hs_short parse vers h
      · rw [hsFront_header parse vers t (by omega), if_neg (by omega), if_neg (by omega)]
  | cons r raw ih =>
    cases msgs with
    | nil => simp at s3
    | cons m msgs =>
      simp only [List.map_cons, List.cons.injEq] at s3
      simp only [List.map_cons, List.flatten_cons, List.append_assoc] at s1
      subst s1
      obtain ⟨t, body⟩ := r
      have hl : body.length ≤ 65535 := s2 (t, body) (by simp)
      have hf := hsFront_hsBytes parse vers t body ((raw.map hsBytes).flatten ++ rest) hl
      simp only at s3
      rw [s3.1] at hf
      rw [splitAll_msg (hsFront_stable parse vers) hf,
        List.drop_left' (by rw [hsBytes_length]),
        ih rfl (fun x hx => s2 x (by simp [hx])) s3.2]

theorem joiner_loop (n : Nat) (j : Joiner μ) (count : Nat) (hn : j.buf.length < n) :
    let p := splitAll (hsFront parse vers) j.buf
    j.loop parse vers n count = (⟨j.frames ++ p.1, p.2.2⟩, if p.2.1 then none else some (count + p.1.length)) := by
  simp only
  induction n generalizing j count with
  | zero => omega
  | succ n ih =>
    unfold Joiner.loop
    cases hf : hsFront parse vers j.buf with
    | more =>
      rw [splitAll_more hf]
      unfold hsFront at hf
      cases hb : bufContainsMessage j.buf with
      | tooLarge => rw [hb] at hf; cases hf
      | needsMoreData => simp
      | oneMessage =>
        rw [hb] at hf
        simp only at hf
        cases hr : readHandshake parse vers (Reader.init j.buf) <;> rw [hr] at hf <;> cases hf
    | bad =>
      rw [splitAll_bad hf]
      unfold hsFront at hf
      cases hb : bufContainsMessage j.buf with
      | tooLarge => simp
      | needsMoreData => rw [hb] at hf; cases hf
      | oneMessage =>
        rw [hb] at hf
        simp only at hf
        cases hr : readHandshake parse vers (Reader.init j.buf) with
        | none => simp [Joiner.deframeOne, hr]
        | some p => rw [hr] at hf; cases hf
    | msg m k =>
      obtain ⟨h1, h2, _⟩ := (hsFront_stable parse vers).msg _ m k hf
      rw [splitAll_msg (hsFront_stable parse vers) hf]
      unfold hsFront at hf
      cases hb : bufContainsMessage j.buf with
      | tooLarge => rw [hb] at hf; cases hf
      | needsMoreData => rw [hb] at hf; cases hf
      | oneMessage =>
        rw [hb] at hf
        simp only at hf
        cases hr : readHandshake parse vers (Reader.init j.buf) with
        | none => rw [hr] at hf; cases hf
        | some p =>
          obtain ⟨m', rd⟩ := p
          rw [hr] at hf
          simp only [FrontStep.msg.injEq] at hf
          obtain ⟨rfl, rfl⟩ := hf
          simp only [Joiner.deframeOne, hr]
          rw [ih _ _ (by simp; omega)]
          simp only [List.length_cons, List.append_assoc, List.cons_append, List.nil_append]
          rw [show count + 1 + (splitAll (hsFront parse vers) (j.buf.drop rd.used)).1.length =
            count + ((splitAll (hsFront parse vers) (j.buf.drop rd.used)).1.length + 1) by omega]

theorem joiner_take (j : Joiner μ) (msg : OpaqueMessage) :
    let p := splitAll (hsFront parse msg.version) (j.buf ++ msg.payload)
    j.takeMessage parse msg = (⟨j.frames ++ p.1, p.2.2⟩, if p.2.1 then none else some p.1.length) := by
  have hb : (if j.buf.isEmpty then msg.payload else j.buf ++ msg.payload) = j.buf ++ msg.payload := by
    cases hj : j.buf <;> simp
  simp only [Joiner.takeMessage, hb]
  rw [joiner_loop parse msg.version _ _ _ (by simp)]
  simp

theorem joinRun_spec (records : List OpaqueMessage) (hv : ∀ m ∈ records, m.version = vers) (j : Joiner μ)
    (before : Bytes) (n : Nat)
    (hs : splitAll (hsFront parse vers) before = (j.frames, false, j.buf)) :
    let r := joinRun parse records j n
    (r.2 = some (n + (r.1.frames.length - j.frames.length)) ∧ j.frames.length ≤ r.1.frames.length ∧
      splitAll (hsFront parse vers) (before ++ (records.map (·.payload)).flatten) = (r.1.frames, false, r.1.buf)) ∨
    (r.2 = none ∧ ∃ k ≤ records.length,
      splitAll (hsFront parse vers) (before ++ ((records.take k).map (·.payload)).flatten) =
        (r.1.frames, true, r.1.buf)) := by
  simp only
  induction records generalizing j before n with
  | nil =>
    refine .inl ⟨?_, Nat.le_refl _, ?_⟩
    · simp [joinRun]
    · simpa [joinRun] using hs
  | cons m ms ih =>
    have hm := hv m (by simp)
    have ht := joiner_take parse j m
    simp only [hm] at ht
    have ha := splitAll_append (hsFront_stable parse vers) before m.payload
    rw [hs] at ha
    simp only [Bool.false_eq_true, if_false] at ha
    unfold joinRun
    rw [ht]
    cases hbad : (splitAll (hsFront parse vers) (j.buf ++ m.payload)).2.1 with
    | true =>
      simp only [if_true]
      refine .inr ⟨by simp, 1, by simp, ?_⟩
      simp only [List.take_succ_cons, List.take_zero, List.map_cons, List.map_nil, List.flatten_cons,
        List.flatten_nil, List.append_nil]
      rw [ha, hbad]
    | false =>
      simp only [Bool.false_eq_true, if_false]
      rw [hbad] at ha
      rcases ih (fun x hx => hv x (by simp [hx]))
        ⟨j.frames ++ (splitAll (hsFront parse vers) (j.buf ++ m.payload)).1,
          (splitAll (hsFront parse vers) (j.buf ++ m.payload)).2.2⟩ (before ++ m.payload)
        (n + (splitAll (hsFront parse vers) (j.buf ++ m.payload)).1.length) ha with ⟨c1, c2, c3⟩ | ⟨c1, k, hk, c2⟩
      · refine .inl ⟨?_, ?_, ?_⟩
        · rw [c1]
          simp only [List.length_append] at c2 ⊢
          congr 1
          omega
        · simp only [List.length_append] at c2; omega
        · rw [List.map_cons, List.flatten_cons, ← List.append_assoc]; exact c3
      · refine .inr ⟨c1, k + 1, by simp; omega, ?_⟩
        rw [List.take_succ_cons, List.map_cons, List.flatten_cons, ← List.append_assoc]
        exact c2

end Tlsn
