import Verif.AgeExample.Dates
import Verif.Protocol.Redacted

/-! # What accepting the age proof means -/

namespace Tlsn.Age

/-! ## The layout of a proof -/

theorem field_length (n : Nat) : (field n).length = 32 := by simp [field]

theorem field_low (n : Nat) : (field n).drop 28 = beBytes 4 n := by
  simp [field, beBytes]

theorem beBytes_last (n : Nat) : (field n).getD 31 0 = UInt8.ofNat (n % 256) := by
  simp [field, beBytes]

theorem fields_length (l : Bytes) : (l.flatMap fun b => field b.toNat).length = 32 * l.length := by
  induction l with
  | nil => rfl
  | cons b l ih => simp only [List.flatMap_cons, List.length_append, field_length, ih, List.length_cons]; omega

theorem fields_last (l : Bytes) (i : Nat) : (l.flatMap fun b => field b.toNat).getD (32 * i + 31) 0 = l.getD i 0 := by
  induction l generalizing i with
  | nil => simp
  | cons b l ih =>
    rw [List.flatMap_cons, List.getD_eq_getElem?_getD]
    cases i with
    | zero =>
      rw [List.getElem?_append_left (by rw [field_length]; omega), ← List.getD_eq_getElem?_getD]
      rw [beBytes_last, Nat.mod_eq_of_lt b.toNat_lt]
      simp
    | succ i =>
      rw [List.getElem?_append_right (by rw [field_length]; omega), field_length, ← List.getD_eq_getElem?_getD]
      rw [show 32 * (i + 1) + 31 - 32 = 32 * i + 31 by omega, ih i]
      simp

theorem publicPart_length (d : Date) (c : Bytes) (hc : c.length = 32) : (publicPart d c).length = 4 + 35 * 32 := by
  simp only [publicPart, List.length_append, field_length, fields_length, hc, beBytes_length]

/-- The public inputs of a proof that begins with them. -/
theorem public_of (d : Date) (c rest : Bytes) (hc : c.length = 32) :
    ((publicPart d c ++ rest).drop 4).take (35 * 32) =
      field d.day ++ (field d.month ++ (field d.year ++ c.flatMap fun b => field b.toNat)) := by
  have h : (beBytes 4 35).length = 4 := by simp
  rw [publicPart, List.append_assoc, List.drop_left' h, List.take_left']
  simp only [List.length_append, field_length, fields_length, hc]

theorem low_append (n : Nat) (l : Bytes) : ((field n ++ l).drop 28).take 4 = beBytes 4 n := by
  rw [List.drop_append_of_le_length (by rw [field_length]; omega), field_low, List.take_left' (by simp)]

theorem day_of (d m y : Nat) (l : Bytes) :
    (((field d ++ (field m ++ (field y ++ l))).drop 28).take 4 = beBytes 4 d) ∧
    (((field d ++ (field m ++ (field y ++ l))).drop 60).take 4 = beBytes 4 m) ∧
    (((field d ++ (field m ++ (field y ++ l))).drop 92).take 4 = beBytes 4 y) := by
  refine ⟨low_append _ _, ?_, ?_⟩
  · rw [show 60 = 32 + 28 from rfl, ← List.drop_drop, List.drop_left' (field_length d), low_append]
  · rw [show 92 = 32 + (32 + 28) from rfl, ← List.drop_drop, List.drop_left' (field_length d), ← List.drop_drop,
      List.drop_left' (field_length m), low_append]

theorem hash_of (d m y : Nat) (c : Bytes) (hc : c.length = 32) :
    hashInProof (field d ++ (field m ++ (field y ++ c.flatMap fun b => field b.toNat))) = c := by
  apply List.ext_getElem
  · simp [hashInProof, hc]
  · intro i h1 h2
    simp only [hashInProof, List.getElem_map, List.getElem_range]
    have hf := fields_last c i
    rw [List.getD_eq_getElem?_getD] at hf ⊢
    rw [List.getElem?_append_right (by rw [field_length]; omega), field_length,
      List.getElem?_append_right (by rw [field_length]; omega), field_length,
      List.getElem?_append_right (by rw [field_length]; omega), field_length,
      show 32 * (i + 3) + 31 - 32 - 32 - 32 = 32 * i + 31 by omega, hf]
    simp [List.getD_eq_getElem?_getD, h2]

theorem numPub_of (d : Date) (c rest : Bytes) : beNat ((publicPart d c ++ rest).take 4) = 35 := by
  rw [publicPart, List.append_assoc, List.take_left' (by simp), beNat_beBytes]

theorem dateOf_public (d : Date) (c rest : Bytes) (hd : d.Typed) :
    dateOf (publicPart d c ++ rest) = (d.year, d.month, d.day) := by
  have h4 : (beBytes 4 35).length = 4 := by simp
  obtain ⟨h1, h2, h3⟩ := hd
  have hb : ∀ n, n < 2 ^ 32 → beNat (field n) = n := fun n hn => by
    rw [field, beNat_beBytes, Nat.mod_eq_of_lt (by omega)]
  unfold dateOf publicPart
  simp only [List.append_assoc]
  rw [show 68 = 4 + (32 + 32) from rfl, show 36 = 4 + 32 from rfl, ← List.drop_drop, ← List.drop_drop,
    ← List.drop_drop, List.drop_left' h4, List.drop_left' (field_length _), List.drop_left' (field_length _),
    List.take_left' (field_length _), List.take_left' (field_length _), List.take_left' (field_length _),
    hb _ h3, hb _ (by omega), hb _ (by omega)]

/-- What the checks of the proof do with a proof that begins with public inputs. -/
theorem checkProof_public (L : Lib) (committed vk : Bytes) (today : NaiveDate) (pd : Date) (c rest : Bytes)
    (ht : pd.Typed) (hc : c.length = 32) :
    checkProof L committed (publicPart pd c ++ rest) vk today =
      match fromYmdOpt (if pd.year < 2 ^ 31 then (pd.year : Int) else (pd.year : Int) - 2 ^ 32) pd.month pd.day with
      | none => .err .date
      | some proofDate =>
        if today.before proofDate then .err .future
        else if c ≠ committed then .err .hash
        else
          match L.verify (publicPart pd c ++ rest) vk with
          | none => .err .verification
          | some valid => if valid then .ok () else .err .invalid := by
  obtain ⟨h1, h2, h3⟩ := ht
  unfold checkProof
  rw [if_neg (by rw [List.length_append, publicPart_length _ _ hc]; omega), if_neg (by rw [numPub_of]; simp)]
  simp only [public_of pd c rest hc, day_of, hash_of _ _ _ _ hc, i32OfBe, beNat_beBytes]
  rw [Nat.mod_eq_of_lt (show pd.day < 256 ^ 4 by omega), Nat.mod_eq_of_lt (show pd.month < 256 ^ 4 by omega),
    Nat.mod_eq_of_lt (show pd.year < 256 ^ 4 by omega)]
  rfl

theorem fromYmdOpt_some {y : Int} {m d : Nat} {n : NaiveDate} (h : fromYmdOpt y m d = some n) :
    n = ⟨y, m, d⟩ ∧ 1 ≤ m ∧ m ≤ 12 ∧ 1 ≤ d ∧ d ≤ daysInMonth (leapInt y) m := by
  unfold fromYmdOpt at h
  split at h
  next hc => cases h; exact ⟨rfl, hc.2.2⟩
  · cases h

theorem before_iff (a b : NaiveDate) : a.before b = true ↔ Earlier a.ymd b.ymd := by
  unfold NaiveDate.before Earlier NaiveDate.ymd
  simp

theorem circuit_true {sha : Bytes → Bytes} {pd : Date} {c dob bl : Bytes} (hd : dob.length = 10) (hb : bl.length = 16)
    (h : circuit sha pd c dob bl = true) : check18 dob pd = some true ∧ sha (dob ++ bl) = c := by
  unfold circuit at h
  split at h
  · cases h
  next b hb18 =>
    simp only [checkHash, Bool.and_eq_true, decide_eq_true_eq] at h
    rw [List.take_of_length_le (by omega), List.take_of_length_le (by omega)] at h
    rw [hb18, h.2]
    exact ⟨rfl, h.1⟩

theorem check18_reads {dob : Bytes} {pd : Date} {b : Bool} (h : check18 dob pd = some b) : ∃ y m d, Reads dob y m d := by
  unfold check18 at h
  split at h
  · cases h
  next d hd => exact ⟨d.year, d.month, d.day, (parse_iff _ _ _ _).1 hd⟩

/-! ## Bundles -/

theorem readVec_write (b r : Bytes) (h : b.length < 2 ^ 64) : readVec (writeVec b ++ r) = some (b, r) := by
  have h8 : (beBytes 8 b.length).reverse.length = 8 := by simp
  unfold readVec writeVec
  rw [if_neg (by simp), List.append_assoc, List.take_left' h8, List.drop_left' h8]
  have : leNat (beBytes 8 b.length).reverse = b.length := by
    rw [leNat, List.reverse_reverse, beNat_beBytes, Nat.mod_eq_of_lt (by omega)]
  simp [this]

theorem readBundle_write (vk proof : Bytes) (h1 : vk.length < 2 ^ 64) (h2 : proof.length < 2 ^ 64) :
    readBundle (writeBundle vk proof) = some (vk, proof) := by
  unfold readBundle writeBundle
  rw [readVec_write vk _ h1]
  dsimp only
  have := readVec_write proof [] h2
  rw [List.append_nil] at this
  rw [this]

theorem writeBundle_ne (vk proof : Bytes) : writeBundle vk proof ≠ [] := by
  intro h
  have := congrArg List.length h
  simp [writeBundle, writeVec] at this

/-! ## What the verifier accepts -/

/-- The parts of an accepted output. -/
theorem accepted_parts {L : Lib} {out : VerifierOutput} {buf : Option Bytes} {today : NaiveDate} {t : PartialTranscript}
    (h : checkOutput L out buf today = .ok t) :
    out.serverName = some domain ∧ out.transcript = some t ∧ L.utf8 t.sent = true ∧ contains t.sent domain = true ∧
    ∃ c cs b vk proof, receivedCommitments out.commitments = c :: cs ∧ c.hash.alg = HashAlgId.sha256 ∧ buf = some b ∧
      readBundle b = some (vk, proof) ∧ L.vk = some vk ∧ checkProof L c.hash.value proof vk today = .ok () := by
  unfold checkOutput at h
  split at h
  next name t' hn ht =>
    split at h
    · cases h
    next hu =>
      split at h
      · cases h
      next hcn =>
        split at h
        · cases h
        next c cs hc =>
          split at h
          · cases h
          · split at h
            · cases h
            next halg =>
              split at h
              · cases h
              next hname =>
                split at h
                · cases h
                · cases h
                next b _ =>
                  split at h
                  · cases h
                  next vk proof hb =>
                    split at h
                    · cases h
                    next k hk =>
                      split at h
                      · cases h
                      next hkv =>
                        simp only [ne_eq, not_not] at hkv halg hname
                        subst hkv hname
                        split at h
                        next hp =>
                          cases h
                          exact ⟨hn, ht, by simpa using hu, by simpa using hcn, c, cs, b, k, proof, hc, halg, rfl, hb,
                            hk, hp⟩
                        · cases h
                        · cases h
  · cases h

theorem mem_tails_iff (t l : Bytes) : t ∈ l.tails ↔ ∃ a, a ++ t = l := by
  induction l with
  | nil => simp [List.tails]
  | cons x l ih =>
    rw [List.tails, List.mem_cons, ih]
    constructor
    · rintro (rfl | ⟨a, rfl⟩)
      · exact ⟨[], rfl⟩
      · exact ⟨x :: a, rfl⟩
    · rintro ⟨a, ha⟩
      cases a with
      | nil => exact .inl ha
      | cons y a => exact .inr ⟨a, (List.cons.inj ha).2⟩

theorem contains_iff (l x : Bytes) : contains l x = true ↔ ∃ a b, l = a ++ x ++ b := by
  unfold contains
  simp only [List.any_eq_true, List.isPrefixOf_iff_prefix]
  constructor
  · rintro ⟨t, ht, ⟨b, rfl⟩⟩
    obtain ⟨a, rfl⟩ := (mem_tails_iff _ _).1 ht
    exact ⟨a, b, by simp⟩
  · rintro ⟨a, b, rfl⟩
    exact ⟨x ++ b, (mem_tails_iff _ _).2 ⟨a, by simp⟩, ⟨b, rfl⟩⟩

theorem readVec_some {b x r : Bytes} (h : readVec b = some (x, r)) : b = writeVec x ++ r ∧ x.length < 2 ^ 64 := by
  unfold readVec at h
  split at h
  · cases h
  next h8 =>
    dsimp only at h
    split at h
    · cases h
    next hn =>
      simp only [Option.some.injEq, Prod.mk.injEq] at h
      obtain ⟨rfl, rfl⟩ := h
      have ht : (b.take 8).length = 8 := by rw [List.length_take]; omega
      have hlt : leNat (b.take 8) < 256 ^ 8 := by
        have := beNat_lt (b.take 8).reverse
        rw [List.length_reverse, ht] at this
        exact this
      have hx : ((b.drop 8).take (leNat (b.take 8))).length = leNat (b.take 8) := by
        rw [List.length_take]; omega
      refine ⟨?_, by rw [hx]; omega⟩
      unfold writeVec
      rw [hx, List.append_assoc, List.take_append_drop]
      have h8' : (beBytes 8 (leNat (b.take 8))).reverse = b.take 8 := by
        have := beBytes_beNat (b.take 8).reverse
        rw [List.length_reverse, ht] at this
        rw [leNat, this, List.reverse_reverse]
      rw [h8', List.take_append_drop]

theorem readBundle_some {b vk proof : Bytes} (h : readBundle b = some (vk, proof)) : Carries (some b) vk proof := by
  unfold readBundle at h
  split at h
  · cases h
  next v rest hv =>
    split at h
    · cases h
    next p extra hp =>
      simp only [Option.some.injEq, Prod.mk.injEq] at h
      obtain ⟨rfl, rfl⟩ := h
      obtain ⟨rfl, h1⟩ := readVec_some hv
      obtain ⟨rfl, h2⟩ := readVec_some hp
      exact ⟨h1, h2, extra, by rw [writeBundle, List.append_assoc]⟩

theorem firstReceived_iff (out : VerifierOutput) (c : PlaintextHash) :
    (∃ cs, receivedCommitments out.commitments = c :: cs) ↔ FirstReceived out c := by
  unfold FirstReceived receivedCommitments
  generalize out.commitments = l
  induction l with
  | nil => simp
  | cons x l ih =>
    by_cases hx : x.direction = .received
    · rw [List.filter_cons_of_pos (by simpa using hx)]
      constructor
      · rintro ⟨cs, h⟩
        obtain ⟨rfl, -⟩ := List.cons.inj h
        exact ⟨[], l, rfl, hx, by simp⟩
      · rintro ⟨before, after, h, hc, hb⟩
        cases before with
        | nil => obtain ⟨rfl, -⟩ := List.cons.inj h; exact ⟨_, rfl⟩
        | cons y before =>
          obtain ⟨rfl, -⟩ := List.cons.inj h
          have := hb x (by simp)
          rw [hx] at this
          cases this
    · rw [List.filter_cons_of_neg (by simpa using hx), ih]
      have hs : x.direction = .sent := by cases h : x.direction <;> simp_all
      constructor
      · rintro ⟨before, after, rfl, hc, hb⟩
        refine ⟨x :: before, after, rfl, hc, fun z hz => ?_⟩
        rcases List.mem_cons.1 hz with rfl | hz
        · exact hs
        · exact hb z hz
      · rintro ⟨before, after, h, hc, hb⟩
        cases before with
        | nil => obtain ⟨rfl, -⟩ := List.cons.inj h; rw [hs] at hc; cases hc
        | cons y before =>
          obtain ⟨rfl, rfl⟩ := List.cons.inj h
          exact ⟨before, after, rfl, hc, fun z hz => hb z (List.mem_cons_of_mem _ hz)⟩

theorem earlier_of_not {a b c : Int × Nat × Nat} (h1 : Earlier a b) (h2 : ¬Earlier c b) : Earlier a c := by
  unfold Earlier at *
  omega

/-- The proof that is accepted has public inputs for which there are private ones, and they are checked. -/
theorem accepted_proof {L : Lib} {sha : Bytes → Bytes} (hL : Sound L sha) {committed proof vk : Bytes}
    {today : NaiveDate} (hk : L.vk = some vk) (h : checkProof L committed proof vk today = .ok ()) :
    ∃ dob blinder, dob.length = 10 ∧ blinder.length = 16 ∧ sha (dob ++ blinder) = committed ∧
      (∃ y m d, Reads dob y m d) ∧
      ((dateOf proof).1 < 2 ^ 31 → ¬Earlier today.ymd ((dateOf proof).1, (dateOf proof).2.1, (dateOf proof).2.2) ∧
        ∀ y m d, Reads dob y m d → IsDate y m d → Earlier (eighteenth y m d) today.ymd) := by
  have hv : L.verify proof vk = some true := by
    unfold checkProof at h
    split at h
    · cases h
    · split at h
      · cases h
      · dsimp only at h
        split at h
        · cases h
        · split at h
          · cases h
          · split at h
            · cases h
            · split at h
              · cases h
              next valid hv =>
                split at h
                next hvalid => rw [hv, hvalid]
                · cases h
  obtain ⟨pd, c, dob, bl, rest, ht, hc, hd, hb, hcirc, rfl⟩ := hL vk proof hk hv
  rw [checkProof_public L committed vk today pd c rest ht hc] at h
  obtain ⟨h18, hsha⟩ := circuit_true hd hb hcirc
  split at h
  · cases h
  next pdn hpd =>
    split at h
    · cases h
    next hbef =>
      split at h
      · cases h
      next heq =>
        simp only [ne_eq, not_not] at heq
        subst heq
        refine ⟨dob, bl, hd, hb, hsha, check18_reads h18, fun hy => ?_⟩
        rw [dateOf_public pd c rest ht] at hy ⊢
        dsimp only at hy ⊢
        rw [if_pos hy] at hpd
        obtain ⟨rfl, h1, h2, h3, h4⟩ := fromYmdOpt_some hpd
        have hne : ¬Earlier today.ymd (pd.year, pd.month, pd.day) := by
          intro hc'
          exact hbef ((before_iff _ _).2 hc')
        refine ⟨hne, fun y m d hr hdate => ?_⟩
        have hp : IsDate pd.year pd.month pd.day := (isDate_iff _ _ _).2 ⟨h1, h2, h3, by rwa [← leapInt_cast]⟩
        rw [check18_calendar dob y m d pd hr hdate hp] at h18
        exact earlier_of_not (by simpa using h18) hne

/-- **C134** (partial: the property is false of proofs with a year from 2^31 on, see `C134_anyone_accepted`, and of dates
that are not the date of birth, see `C134_place_unchecked`.)  The verifier accepts an output that is true of the
session's data: the server has the expected name, the name is in the sent data, and the bytes of the response at the
positions of the first commitment are a text with the digits of a date.  If that is a date of the calendar, the
eighteenth birthday was before today.  Otherwise somebody found a collision of SHA-256. -/
theorem C134_age_partial (L : Lib) (sha : Bytes → Bytes) (hL : Sound L sha) (hc : HashCircuits)
    (hsha : ∀ f, hc HashAlgId.sha256 = some f → ∀ x, (f x).toList = sha x) (certs : CertVerifier) (tls : SessionView)
    (data : Transcript) (msg : Protocol.ProveMsg) (out : VerifierOutput)
    (htrue : Protocol.TrueOutput hc certs tls data msg out) (buf : Option Bytes) (today : NaiveDate)
    (t : PartialTranscript) (h : checkOutput L out buf today = .ok t) :
    out.serverName = some domain ∧ out.transcript = some t ∧ (∃ a b, t.sent = a ++ domain ++ b) ∧
    ∃ c text vk proof, FirstReceived out c ∧ BytesAt data.received c.idx text ∧ Carries buf vk proof ∧
      L.vk = some vk ∧
      (ShaCollision sha ∨ text.length = 10 ∧ (∃ y m d, Reads text y m d) ∧
        ((dateOf proof).1 < 2 ^ 31 →
          ∀ y m d, Reads text y m d → IsDate y m d → Earlier (eighteenth y m d) today.ymd)) := by
  obtain ⟨h1, h2, _, h4, c, cs, b, vk, proof, hfirst, halg, rfl, hb, hk, hp⟩ := accepted_parts h
  refine ⟨h1, h2, (contains_iff _ _).1 h4, ?_⟩
  have hF := (firstReceived_iff out c).1 ⟨cs, hfirst⟩
  obtain ⟨before, after, hcs, hdir, _⟩ := hF
  obtain ⟨hlen, hpw⟩ := htrue.hashes
  have hci : out.commitments[before.length]? = some c := by rw [hcs]; simp
  obtain ⟨q, hq⟩ : ∃ q, msg.request.hashes[before.length]? = some q :=
    ⟨_, List.getElem?_eq_getElem (by
      rw [hlen]
      exact (List.getElem?_eq_some_iff.1 hci).1)⟩
  obtain ⟨f, text, bl, hf, hbytes, hbl, hceq⟩ := hpw _ _ _ hq hci
  obtain ⟨dir, idx, alg⟩ := q
  subst hceq
  dsimp only at hf hbytes halg hdir hp
  subst halg hdir
  refine ⟨_, text, vk, proof, (firstReceived_iff out _).1 ⟨cs, hfirst⟩, hbytes, readBundle_some hb, hk, ?_⟩
  obtain ⟨dob, bl', hd, hbl', hs, hreads, hage⟩ := accepted_proof hL hk hp
  rw [hsha f hf] at hs
  by_cases he : dob ++ bl' = text ++ bl
  · obtain ⟨rfl, -⟩ := List.append_inj' he (by omega)
    exact .inr ⟨hd, hreads, fun hy => (hage hy).2⟩
  · exact .inl ⟨_, _, he, hs⟩

/-- **C134** (partial, as above.)  The same for the verifier of the example, whatever the prover sends in a session and
after it: the data are those of the one session the keys belong to. -/
theorem C134_session_partial (L : Lib) (sha : Bytes → Bytes) (hL : Sound L sha) (env : Protocol.Env) (k : KeyBytes)
    (vm : ZkVm) (hk : HoldsKeys vm env.keys k) (hw : WellFormed env.tls)
    (hsha : ∀ f, env.hc HashAlgId.sha256 = some f → ∀ x, (f x).toList = sha x) (msg : Protocol.ProveMsg)
    (hmsg : ∀ t, msg.transcript = some t → ∃ c, PartialTranscript.deserialize c = .ok t) (buf : Option Bytes) (today : NaiveDate) (t : PartialTranscript)
    (h : verifier env vm L msg buf today = .ok t) :
    msg.request.serverIdentity = true ∧ (∃ hsd, msg.handshake = some (domain, hsd)) ∧
    (∃ a b, (sessionData env.aes k env.tls).sent = a ++ domain ++ b) ∧
    ∃ idx text vk proof, BytesAt (sessionData env.aes k env.tls).received idx text ∧ Carries buf vk proof ∧
      L.vk = some vk ∧
      (ShaCollision sha ∨ text.length = 10 ∧ (∃ y m d, Reads text y m d) ∧
        ((dateOf proof).1 < 2 ^ 31 →
          ∀ y m d, Reads text y m d → IsDate y m d → Earlier (eighteenth y m d) today.ymd)) := by
  unfold verifier at h
  split at h
  · cases h
  next hreq =>
    split at h
    next r out hrun =>
      have hcs : Protocol.DecodedCalls [.verify (some msg), .accept true] := by
        intro m t hm ht
        simp only [List.mem_cons, Protocol.VCall.verify.injEq, Option.some.injEq, List.not_mem_nil, or_false] at hm
        rcases hm with rfl | hm
        · exact hmsg t ht
        · cases hm
      obtain ⟨j, m, certs, hj, hcj, -, -, -, htrue⟩ := Protocol.C95_every_output env k vm hk hw _
        (Protocol.decoded_wellFormed hcs) 1 out (by rw [hrun]; rfl)
      obtain rfl : j = 0 := by omega
      simp only [List.getElem?_cons_zero, Option.some.injEq, Protocol.VCall.verify.injEq] at hcj
      subst hcj
      obtain ⟨hn, ht, hin, c, text, vk, proof, _, hbytes, hcar, hvk, hres⟩ := C134_age_partial L sha hL env.hc hsha
        certs env.tls _ msg out htrue buf today t h
      refine ⟨by simpa using fun hf => hreq (.inl hf), ?_, ?_, c.idx, text, vk, proof,
        hbytes, hcar, hvk, hres⟩
      have := htrue.name
      rw [hn] at this
      cases hh : msg.handshake with
      | none => rw [hh] at this; cases this
      | some p =>
        rw [hh] at this
        obtain ⟨n, hsd⟩ := p
        simp only [Option.map_some, Option.some.injEq] at this
        subst this
        exact ⟨hsd, rfl⟩
      obtain ⟨a, b, hab⟩ := hin
      obtain ⟨⟨a', b', h', _⟩, _⟩ := Protocol.C135_found env k vm hk hw _ hcs 1 out t (by rw [hrun]; rfl) ht .sent a domain
        b hab (by decide)
      exact ⟨a', b', h'⟩
    · cases h
    · cases h

/-! ## Honest provers -/

/-- The output the checks of the session allow, with a commitment to a text of ten bytes. -/
structure Fits (L : Lib) (sha : Bytes → Bytes) (out : VerifierOutput) (t : PartialTranscript) (c : PlaintextHash)
    (text blinder : Bytes) : Prop where
  name : out.serverName = some domain
  transcript : out.transcript = some t
  utf8 : L.utf8 t.sent = true
  host : ∃ a b, t.sent = a ++ domain ++ b
  first : FirstReceived out c
  alg : c.hash.alg = HashAlgId.sha256
  hash : c.hash.value = sha (text ++ blinder)
  hashLength : c.hash.value.length = 32
  textLength : text.length = 10
  blinderLength : blinder.length = 16

theorem checkOutput_fits {L : Lib} {sha : Bytes → Bytes} {out : VerifierOutput} {t : PartialTranscript}
    {c : PlaintextHash} {text bl : Bytes} (hf : Fits L sha out t c text bl) {vk proof : Bytes} (hk : L.vk = some vk)
    (h1 : vk.length < 2 ^ 64) (h2 : proof.length < 2 ^ 64) {today : NaiveDate}
    (hp : checkProof L c.hash.value proof vk today = .ok ()) :
    checkOutput L out (some (writeBundle vk proof)) today = .ok t := by
  obtain ⟨cs, hcs⟩ := (firstReceived_iff out c).2 hf.first
  obtain ⟨_, _, _, hdir, _⟩ := hf.first
  unfold checkOutput
  rw [hf.name, hf.transcript]
  dsimp only
  rw [if_neg (by rw [hf.utf8]; simp), if_neg (by rw [(contains_iff _ _).2 hf.host]; simp), hcs]
  dsimp only
  rw [if_neg (by simpa using hdir), if_neg (by simpa using hf.alg), if_neg (by simp)]
  split
  next h => cases h
  next h => exact absurd (Option.some.inj h) (writeBundle_ne vk proof)
  next b _ hb =>
    obtain rfl := Option.some.inj hb
    rw [readBundle_write vk proof h1 h2]
    dsimp only
    rw [hk]
    dsimp only
    rw [if_neg (by simp), hp]

/-- A proof for a date is accepted, if the verifier reads the date as one of today or before. -/
theorem accepted_for {L : Lib} {sha : Bytes → Bytes} (hL : Complete L sha) {out : VerifierOutput}
    {t : PartialTranscript} {c : PlaintextHash} {text bl : Bytes} (hf : Fits L sha out t c text bl) {y m d : Nat}
    (hr : Reads text y m d) (hd : IsDate y m d) {today : NaiveDate} (pd : Date) (ht : pd.Typed)
    (hpd : IsDate pd.year pd.month pd.day) (hage : Earlier (eighteenth y m d) (pd.year, pd.month, pd.day))
    {n : NaiveDate}
    (hn : fromYmdOpt (if pd.year < 2 ^ 31 then (pd.year : Int) else (pd.year : Int) - 2 ^ 32) pd.month pd.day = some n)
    (hb : ¬Earlier today.ymd n.ymd) :
    ∃ vk proof, L.vk = some vk ∧ dateOf proof = (pd.year, pd.month, pd.day) ∧
      checkOutput L out (some (writeBundle vk proof)) today = .ok t := by
  obtain ⟨vk, hk, hvl, hcomp⟩ := hL
  have hcirc : circuit sha pd c.hash.value text bl = true := by
    unfold circuit
    rw [check18_calendar text y m d pd hr hd hpd]
    simp only [checkHash, hage, decide_true, Bool.and_true, decide_eq_true_eq]
    rw [List.take_of_length_le (by rw [hf.textLength]), List.take_of_length_le (by rw [hf.blinderLength]),
      hf.hash]
  obtain ⟨rest, hl, hv⟩ := hcomp pd c.hash.value text bl ht hf.hashLength hf.textLength hf.blinderLength hcirc
  refine ⟨vk, _, hk, dateOf_public pd _ rest ht, checkOutput_fits hf hk hvl hl ?_⟩
  rw [checkProof_public L _ vk today pd _ rest ht hf.hashLength, hn]
  dsimp only
  rw [if_neg (by rw [before_iff]; exact hb), if_neg (by simp), hv]
  simp

/-- **C134** Somebody whose eighteenth birthday was before today is accepted, with a proof for the date of today. -/
theorem C134_adult_accepted (L : Lib) (sha : Bytes → Bytes) (hL : Complete L sha) (out : VerifierOutput)
    (t : PartialTranscript) (c : PlaintextHash) (text blinder : Bytes) (hf : Fits L sha out t c text blinder)
    (y m d : Nat) (hr : Reads text y m d) (hd : IsDate y m d) (ty tm td : Nat) (hy : ty ≤ 262142)
    (ht : IsDate ty tm td) (hage : Earlier (eighteenth y m d) (ty, tm, td)) :
    ∃ vk proof, L.vk = some vk ∧ dateOf proof = (ty, tm, td) ∧
      checkOutput L out (some (writeBundle vk proof)) ⟨ty, tm, td⟩ = .ok t := by
  have hi := (isDate_iff _ _ _).1 ht
  have hm := daysInMonth_le (isLeapYear ty) tm
  refine accepted_for hL hf hr hd ⟨td, tm, ty⟩ ⟨by dsimp only; omega, by dsimp only; omega, by dsimp only; omega⟩ ht hage
    (n := ⟨ty, tm, td⟩) ?_ (by simp [Earlier])
  dsimp only
  rw [if_pos (by omega), fromYmdOpt, if_pos]
  rw [leapInt_cast]
  exact ⟨by omega, by omega, hi⟩

/-! ## Where the property fails -/

/-- **C134** The property fails: whatever the date of birth and whatever the date of today, a prover who gives the first
of January of the year 4294967295 as the date of the proof is accepted.  The circuit takes the year as an unsigned
number, so that everybody was 18 by then; the verifier reads the same four bytes as the year -1, which is past. -/
theorem C134_anyone_accepted (L : Lib) (sha : Bytes → Bytes) (hL : Complete L sha) (out : VerifierOutput)
    (t : PartialTranscript) (c : PlaintextHash) (text blinder : Bytes) (hf : Fits L sha out t c text blinder)
    (y m d : Nat) (hr : Reads text y m d) (hd : IsDate y m d) (today : NaiveDate) (hy : 0 ≤ today.year) :
    ∃ vk proof, L.vk = some vk ∧ dateOf proof = (4294967295, 1, 1) ∧
      checkOutput L out (some (writeBundle vk proof)) today = .ok t := by
  have h10 : y < 10000 := hr.1
  refine accepted_for hL hf hr hd ⟨1, 1, 4294967295⟩ ⟨by decide, by decide, by decide⟩
    ((isDate_iff _ _ _).2 (by decide)) ?_ (n := ⟨-1, 1, 1⟩) (by decide) ?_
  · left
    rw [(addYears_eighteenth y m d).2]
    dsimp only
    omega
  · unfold Earlier NaiveDate.ymd
    dsimp only
    omega

/-- **C134** The verifier does not look at the positions of the commitment: whatever they are, it does the same.  A date
anywhere in the response, or digits that are no date of birth, do as well as the date of birth. -/
theorem C134_place_unchecked (L : Lib) (out : VerifierOutput) (buf : Option Bytes) (today : NaiveDate)
    (place : PlaintextHash → RangeSet) :
    checkOutput L { out with commitments := out.commitments.map fun c => { c with idx := place c } } buf today =
      checkOutput L out buf today := by
  have h : receivedCommitments (out.commitments.map fun c => { c with idx := place c }) =
      (receivedCommitments out.commitments).map fun c => { c with idx := place c } := by
    unfold receivedCommitments
    rw [List.filter_map]
    rfl
  unfold checkOutput
  simp only [h]
  split
  · split
    · rfl
    · split
      · rfl
      · cases receivedCommitments out.commitments <;> rfl
  · rfl

/-- **C134** A prover who commits with another hash algorithm makes the verifier panic. -/
theorem C134_other_algorithm_panics (L : Lib) (out : VerifierOutput) (t : PartialTranscript) (c : PlaintextHash)
    (name : ServerName) (hn : out.serverName = some name) (ht : out.transcript = some t) (hu : L.utf8 t.sent = true)
    (hh : ∃ a b, t.sent = a ++ domain ++ b) (hf : FirstReceived out c) (ha : c.hash.alg ≠ HashAlgId.sha256)
    (buf : Option Bytes) (today : NaiveDate) : checkOutput L out buf today = .panic := by
  obtain ⟨cs, hcs⟩ := (firstReceived_iff out c).2 hf
  obtain ⟨_, _, _, hdir, _⟩ := hf
  unfold checkOutput
  rw [hn, ht]
  dsimp only
  rw [if_neg (by rw [hu]; simp), if_neg (by rw [(contains_iff _ _).2 hh]; simp), hcs]
  dsimp only
  rw [if_neg (by simpa using hdir), if_pos ha]

end Tlsn.Age
