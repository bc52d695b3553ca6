import Verif.AgeExample.Props

/-! # Examples for the age proof -/

namespace Tlsn.Age

/-- A hash for the examples: the first 32 bytes. -/
def exSha (x : Bytes) : Bytes := (Vector.ofFn fun i : Fin 32 => x.getD i 0).toList

/-- The date and the hash in the public inputs of a proof. -/
def exRead (proof : Bytes) : Date × Bytes :=
  (⟨(dateOf proof).2.2, (dateOf proof).2.1, (dateOf proof).1⟩, hashInProof ((proof.drop 4).take (35 * 32)))

instance (d : Date) : Decidable d.Typed := by unfold Date.Typed; infer_instance

/-- A proof system for the examples: the private inputs can be read from the hash. -/
def exLib : Lib where
  utf8 := fun _ => true
  vk := some [7, 7]
  verify := fun proof _ =>
    let r := exRead proof
    some (decide (r.1.Typed ∧ proof = publicPart r.1 r.2 ++ proof.drop (4 + 35 * 32) ∧
      circuit exSha r.1 r.2 (r.2.take 10) ((r.2.drop 10).take 16) = true))

theorem exSound : Sound exLib exSha := by
  intro vk proof _ h
  simp only [exLib, Option.some.injEq, decide_eq_true_eq] at h
  obtain ⟨h1, h2, h3⟩ := h
  have hl : (exRead proof).2.length = 32 := by simp [exRead, hashInProof]
  exact ⟨_, _, _, _, _, h1, hl, by rw [List.length_take]; omega, by rw [List.length_take, List.length_drop]; omega, h3, h2⟩

theorem exSha_take (dob bl : Bytes) (hd : dob.length = 10) (hb : bl.length = 16) :
    (exSha (dob ++ bl)).take 10 = dob ∧ ((exSha (dob ++ bl)).drop 10).take 16 = bl := by
  have hg : ∀ i, i < 26 → (exSha (dob ++ bl))[i]? = (dob ++ bl)[i]? := by
    intro i hi
    have : i < (dob ++ bl).length := by simp; omega
    simp only [exSha, List.getElem?_eq_getElem this, List.getD_eq_getElem?_getD]
    rw [List.getElem?_eq_getElem (by simp; omega)]
    simp [List.getElem?_eq_getElem this]
  constructor
  · apply List.ext_getElem?
    intro i
    rw [List.getElem?_take]
    split
    next h => rw [hg i (by omega), List.getElem?_append_left (by omega)]
    next h => rw [List.getElem?_eq_none (by omega)]
  · apply List.ext_getElem?
    intro i
    rw [List.getElem?_take]
    split
    next h =>
      rw [List.getElem?_drop, hg _ (by omega), List.getElem?_append_right (by omega), hd]
      congr 1; omega
    next h => rw [List.getElem?_eq_none (by omega)]

theorem exComplete : Complete exLib exSha := by
  refine ⟨_, rfl, by decide, fun pd c dob bl ht hc hd hb h => ⟨[], ?_, ?_⟩⟩
  · rw [List.length_append, publicPart_length _ _ hc]; decide
  · obtain ⟨h18, hs⟩ := circuit_true hd hb h
    have hr : exRead (publicPart pd c ++ []) = (pd, c) := by
      simp only [exRead, dateOf_public pd c [] ht, public_of pd c [] hc, hash_of _ _ _ _ hc]
    simp only [exLib, hr, Option.some.injEq, decide_eq_true_eq]
    refine ⟨ht, ?_, ?_⟩
    · rw [List.append_nil, List.drop_eq_nil_of_le (by rw [publicPart_length _ _ hc]), List.append_nil]
    · obtain ⟨e1, e2⟩ := exSha_take dob bl hd hb
      rw [← hs, e1, e2, hs]
      exact h

/-- The texts `1985-03-12` and `2015-06-01`. -/
def exAdult : Bytes := [49, 57, 56, 53, 45, 48, 51, 45, 49, 50]
def exChild : Bytes := [50, 48, 49, 53, 45, 48, 54, 45, 48, 49]

theorem exAdult_reads : Reads exAdult 1985 3 12 := ⟨by decide, by decide, by decide, 45, 45, by decide⟩
theorem exChild_reads : Reads exChild 2015 6 1 := ⟨by decide, by decide, by decide, 45, 45, by decide⟩

/-- The blinder of the examples. -/
def exBlinder : Bytes := List.replicate 16 5

/-- An output with a commitment to a text. -/
def exOut (text : Bytes) : VerifierOutput where
  serverName := some domain
  transcript := some ⟨domain, List.replicate 10 0, RangeSet.ofRange 0 14, ∅⟩
  commitments := [⟨.received, RangeSet.ofRange 0 10, ⟨1, exSha (text ++ exBlinder)⟩⟩]

theorem exFits (text : Bytes) (h : text.length = 10) :
    Fits exLib exSha (exOut text) ⟨domain, List.replicate 10 0, RangeSet.ofRange 0 14, ∅⟩
      ⟨.received, RangeSet.ofRange 0 10, ⟨1, exSha (text ++ exBlinder)⟩⟩ text exBlinder where
  name := by simp only [exOut]
  transcript := by simp only [exOut]
  utf8 := by simp only [exLib]
  host := ⟨[], [], by simp only [List.nil_append, List.append_nil]⟩
  first := ⟨[], [], by simp only [exOut, List.nil_append], by simp only, fun x hx => nomatch hx⟩
  alg := by simp only [HashAlgId.sha256]
  hash := by simp only
  hashLength := by simp only [exSha, Vector.length_toList]
  textLength := h
  blinderLength := by simp only [exBlinder, List.length_replicate]

/-- A bundle for a date and a text. -/
def exBundle (text : Bytes) (pd : Date) : Option Bytes :=
  some (writeBundle [7, 7] (publicPart pd (exSha (text ++ exBlinder))))

/-- Example for `C134_adult_accepted`: born on 12 March 1985, today 17 November 2026; and one for the hypotheses of
`C134_age_partial`. -/
example : (checkOutput exLib (exOut exAdult) (exBundle exAdult ⟨17, 11, 2026⟩) ⟨2026, 11, 17⟩) =
    .ok ⟨domain, List.replicate 10 0, RangeSet.ofRange 0 14, ∅⟩ := by decide +kernel

example : ∃ vk proof, exLib.vk = some vk ∧ dateOf proof = (2026, 11, 17) ∧
    checkOutput exLib (exOut exAdult) (some (writeBundle vk proof)) ⟨2026, 11, 17⟩ =
      .ok ⟨domain, List.replicate 10 0, RangeSet.ofRange 0 14, ∅⟩ :=
  C134_adult_accepted exLib exSha exComplete _ _ _ _ _ (exFits exAdult rfl) 1985 3 12 exAdult_reads
    ⟨by decide, by decide, 31, by decide, by decide⟩ 2026 11 17 (by decide)
    ⟨by decide, by decide, 30, by decide, by decide⟩ (by decide)

/-- Somebody born on 1 June 2015 is refused with the date of today, and with a date in the future; and accepted with
the year 4294967295: example for `C134_anyone_accepted`. -/
example : checkOutput exLib (exOut exChild) (exBundle exChild ⟨17, 11, 2026⟩) ⟨2026, 11, 17⟩ = .err .invalid ∧
    checkOutput exLib (exOut exChild) (exBundle exChild ⟨17, 11, 2040⟩) ⟨2026, 11, 17⟩ = .err .future ∧
    checkOutput exLib (exOut exChild) (exBundle exChild ⟨1, 1, 4294967295⟩) ⟨2026, 11, 17⟩ =
      .ok ⟨domain, List.replicate 10 0, RangeSet.ofRange 0 14, ∅⟩ := by decide +kernel

example : ∃ vk proof, exLib.vk = some vk ∧ dateOf proof = (4294967295, 1, 1) ∧
    checkOutput exLib (exOut exChild) (some (writeBundle vk proof)) ⟨2026, 11, 17⟩ =
      .ok ⟨domain, List.replicate 10 0, RangeSet.ofRange 0 14, ∅⟩ :=
  C134_anyone_accepted exLib exSha exComplete _ _ _ _ _ (exFits exChild rfl) 2015 6 1 exChild_reads
    ⟨by decide, by decide, 30, by decide, by decide⟩ ⟨2026, 11, 17⟩ (by decide)

/-- Example for `C134_other_algorithm_panics`. -/
example : checkOutput exLib { exOut exAdult with commitments :=
    [⟨.sent, ∅, ⟨1, []⟩⟩, ⟨.received, RangeSet.ofRange 0 10, ⟨2, exSha (exAdult ++ exBlinder)⟩⟩] } none ⟨2026, 11, 17⟩ =
      .panic := by decide +kernel

/-! ## A session -/

/-- The key streams of the records of the example. -/
def exStream : Transcript := sessionData exAes exKeyBytes
  ⟨[⟨1, .applicationData, none, [0, 0, 0, 0, 0, 0, 0, 1], List.replicate 14 0, none⟩],
    [⟨1, .applicationData, none, [0, 0, 0, 0, 0, 0, 0, 9], List.replicate 10 0, none⟩], 5, some ⟨[4]⟩⟩

/-- A session in which the name of the server was sent and a date of birth received. -/
def exTls : SessionView :=
  ⟨[⟨1, .applicationData, none, [0, 0, 0, 0, 0, 0, 0, 1], xorBytes domain exStream.sent, none⟩],
    [⟨1, .applicationData, none, [0, 0, 0, 0, 0, 0, 0, 9], xorBytes exAdult exStream.received, none⟩], 5, some ⟨[4]⟩⟩

def exEnv : Protocol.Env := ⟨exAes, exCircuits, true, some exCerts, exKeyRefs, exTls⟩

/-- The statement of the prover: the sent data are revealed, the received are committed. -/
def exConfig : ProveConfig where
  serverIdentity := true
  reveal := some (RangeSet.ofRange 0 14, ∅)
  transcriptCommit := some ⟨[((.received, RangeSet.ofRange 0 10), 1)]⟩

def exRounds : List Protocol.Round := [⟨exConfig, fun _ => Vector.replicate 16 5, fun _ => none⟩]

def exFill (a : Nat) : Byte :=
  match Protocol.proverAfter exEnv (sessionData exAes exKeyBytes exTls) (some (exZkVm fun _ => 0)) exRounds with
  | some vp => vp.mem.getD a 0
  | none => 0

def exMsg : Option Protocol.ProveMsg :=
  Protocol.proverMsg exConfig domain Protocol.exHsd (sessionData exAes exKeyBytes exTls)

/-- Example for `C134_session_partial`: the session of an adult is accepted. -/
example : sessionData exAes exKeyBytes exTls = ⟨domain, exAdult⟩ ∧
    (match exMsg with
      | some msg => match verifier exEnv (exZkVm exFill) exLib msg (exBundle exAdult ⟨17, 11, 2026⟩) ⟨2026, 11, 17⟩ with
        | .ok t => decide (t.sent = domain) && decide (msg.transcript.bind (·.compress) ≠ none) &&
          (match (msg.transcript.bind (·.compress)).map PartialTranscript.deserialize with
            | some (.ok t) => decide (msg.transcript = some t)
            | _ => false)
        | _ => false
      | none => false) = true := by decide +kernel

end Tlsn.Age
