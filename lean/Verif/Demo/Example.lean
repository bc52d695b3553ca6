import Verif.Demo.Shown

/-! # Examples for the example verifiers -/

namespace Tlsn.Demo

open Age (domain)

/-- The key streams of the records of the example. -/
def exStream : Transcript := sessionData exAes exKeyBytes
  ⟨[⟨1, .applicationData, none, [0, 0, 0, 0, 0, 0, 0, 1], List.replicate 16 0, none⟩],
    [⟨1, .applicationData, none, [0, 0, 0, 0, 0, 0, 0, 9], List.replicate 16 0, none⟩], 5, some ⟨[4]⟩⟩

/-- A session in which the name of the server was sent between two other bytes, and the author received after one. -/
def exTls : SessionView :=
  ⟨[⟨1, .applicationData, none, [0, 0, 0, 0, 0, 0, 0, 1], xorBytes (65 :: domain ++ [66]) exStream.sent, none⟩],
    [⟨1, .applicationData, none, [0, 0, 0, 0, 0, 0, 0, 9], xorBytes (67 :: author) exStream.received, none⟩], 5, some ⟨[4]⟩⟩

def exEnv : Protocol.Env := ⟨exAes, exCircuits, true, some exCerts, exKeyRefs, exTls⟩

/-- All but the two bytes around the name is revealed. -/
def exConfig : ProveConfig := ⟨true, some (RangeSet.ofRange 1 15, RangeSet.ofRange 0 16), none⟩

def exFill (a : Nat) : Byte :=
  match Protocol.proverAfter exEnv (sessionData exAes exKeyBytes exTls) (some (exZkVm fun _ => 0))
    [⟨exConfig, fun _ => Vector.replicate 16 5, decision⟩] with
  | some vp => vp.mem.getD a 0
  | none => 0

def exMsg : Option Protocol.ProveMsg := Protocol.proverMsg exConfig domain Protocol.exHsd (sessionData exAes exKeyBytes exTls)

def exVersion : Protocol.Version := ⟨0, 1, 0, "alpha", ""⟩

/-- A proposal within the limits and one above them. -/
def exMpc (n : Nat) : Protocol.CommitMsg MpcTlsConfig Unit := ⟨.mpc ⟨n, none, 0, 16384, none, true, .latency⟩, exVersion⟩

/-- Example for `C136_basic`, `C136_proxy` and `C136_honest`: the session is accepted with a proposal within the limits, in both
examples; a larger proposal and one for the proxy are not; and the data are those of the session. -/
example : sessionData exAes exKeyBytes exTls = ⟨65 :: domain ++ [66], 67 :: author⟩ ∧
    (match basicVerifier (fun _ _ => "") exVersion (fun _ => true) (fun _ => some (exEnv, exZkVm exFill)) (some (exMpc 4096)) exMsg,
        proxyVerifier (fun _ _ => "") exVersion (fun _ => true) (fun _ => some (exEnv, exZkVm exFill)) (some (exMpc 4097)) exMsg with
      | .ok t, .ok t' => decide (t = t' ∧ t.sent = 0 :: domain ++ [0] ∧ t.received = 67 :: author)
      | _, _ => false) = true ∧
    basicVerifier (fun _ _ => "") exVersion (fun _ => true) (fun _ => some (exEnv, exZkVm exFill)) (some (exMpc 4097)) exMsg =
      .err .proposal ∧
    basicVerifier (fun _ _ => "") exVersion (fun _ => true) (fun _ => some (exEnv, exZkVm exFill))
      (some ⟨.proxy (), exVersion⟩) exMsg = .err .proposal ∧
    (match exMsg.bind (·.transcript) with
      | some t => match t.compress.map PartialTranscript.deserialize with
        | some (.ok t') => decide (t' = t)
        | _ => false
      | none => false) = true := by decide +kernel

/-- The hypothesis of `C136_basic` and `C136_proxy` on the keys. -/
theorem exKeeps (fill : Nat → Byte) : KeepsKeys exKeyBytes exEnv (exZkVm fill) := by
  refine ⟨exHoldsKeys fill, fun r hr _ => ?_⟩
  simp only [exEnv, exTls, List.mem_cons, List.not_mem_nil, or_false] at hr
  rcases hr with rfl | rfl <;> rfl

/-- The hypotheses of `C136_honest` on the statement. -/
example : Protocol.Provable exEnv (sessionData exAes exKeyBytes exTls) exCerts domain Protocol.exHsd exConfig ∧
    (∃ a b, (sessionData exAes exKeyBytes exTls).sent = a ++ domain ++ b ∧ ∀ j < domain.length, a.length + j ∈ RangeSet.ofRange 1 15) ∧
    ∃ a b, (sessionData exAes exKeyBytes exTls).received = a ++ author ++ b ∧ ∀ j < author.length, a.length + j ∈ RangeSet.ofRange 0 16 := by
  refine ⟨⟨fun r hr => ?_, (fun q hq => nomatch hq), fun _ => ⟨_, rfl, by decide +kernel⟩⟩, ⟨[65], [66], by decide +kernel, by decide +kernel⟩,
    [67], [], by decide +kernel, by decide +kernel⟩
  obtain rfl := Option.some.inj hr
  exact ⟨RangeSet.endD_le_iff.1 (by decide +kernel), RangeSet.endD_le_iff.1 (by decide +kernel)⟩

/-- Example for `C100_shown_partial`: every presentation that verifies with a name and a transcript is shown, such as the one of the
example for `C100_presentation_partial`. -/
example (checked : Bool) (v : CryptoProvider) (p : Presentation) (out : PresentationOutput) (name : ServerName) (t : PartialTranscript)
    (h : p.verify checked v = .ok out) (hn : out.serverName = some name) (ht : out.transcript = some t) :
    ∃ shown, showPresentation checked v p = some shown ∧ shown.name = name ∧ shown.sent.length = t.sent.length := by
  obtain ⟨q, hq, hs⟩ := C05_set_unauthed t 88
  exact ⟨⟨out.connectionInfo.time, name, q.sent, q.received⟩, by simp only [showPresentation, h, hn, ht, hq], rfl, (hs .sent).2.1⟩

end Tlsn.Demo
