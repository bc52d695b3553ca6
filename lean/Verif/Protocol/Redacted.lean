import Verif.Protocol.Props

/-! # What a verifier sees of bytes that were not revealed

The partial transcript of an output comes from a message of the prover.  It is decoded from a compressed form that has
no room for other bytes than the revealed ones, so that the others are zero, whatever the prover sends. -/

namespace Tlsn.Protocol

/-! ## Specification -/

/-- The partial transcripts of the messages of a history were decoded from what the prover sent. -/
def DecodedCalls (cs : List VCall) : Prop :=
  ∀ msg t, VCall.verify (some msg) ∈ cs → msg.transcript = some t → ∃ c, PartialTranscript.deserialize c = .ok t

/-! ## Decoded partial transcripts -/

theorem deserialize_zero {c : Compressed} {t : PartialTranscript} (h : PartialTranscript.deserialize c = .ok t) :
    t.WF ∧ ∀ d i, i ∉ t.authed d → i < (t.data d).length → (t.data d)[i]? = some 0 := by
  unfold PartialTranscript.deserialize at h
  split at h
  · cases h
  next c' hv =>
    have hd : c'.decompress = some t := by
      cases hd : c'.decompress with
      | none => rw [hd] at h; cases h
      | some p => rw [hd] at h; cases h; rfl
    unfold Compressed.decompress at hd
    split at hd
    · cases hd
    · simp only [Option.bind_eq_bind, Option.bind_eq_some_iff, Option.pure_def, Option.some.injEq] at hd
      obtain ⟨s, hs, r, hr, rfl⟩ := hd
      obtain ⟨s1, s2, s3⟩ := scatter_spec hs
      obtain ⟨r1, r2, r3⟩ := scatter_spec hr
      refine ⟨PartialTranscript.wf_iff.2 ⟨?_, ?_⟩, fun d i hi hl => ?_⟩
      · dsimp only
        rw [s1]
        exact RangeSet.endD_le_of_inBounds s2
      · dsimp only
        rw [r1]
        exact RangeSet.endD_le_of_inBounds r2
      · cases d with
        | sent =>
          have hl' : i < s.length := hl
          show s[i]? = some 0
          rw [s3 i (fun hm => hi hm)]
          rw [s1, List.length_replicate] at hl'
          simp [hl']
        | received =>
          have hl' : i < r.length := hl
          show r[i]? = some 0
          rw [r3 i (fun hm => hi hm)]
          rw [r1, List.length_replicate] at hl'
          simp [hl']

/-! ## Outputs -/

/-- The transcript of an output is the one of the message. -/
theorem verifySession_transcript {aes : AesFn} {hc : HashCircuits} {e : Bool} {certs : CertVerifier} {vm vm' : ZkVm}
    {keys : KeyRefs} {tls : SessionView} {request : ProveRequest} {hs : Option (ServerName × HandshakeData)}
    {transcript : Option PartialTranscript} {out : VerifierOutput} {t : PartialTranscript}
    (h : verifySession aes hc e certs vm keys tls request hs transcript = .ok (vm', out)) (ht : out.transcript = some t) :
    transcript = some t := by
  unfold verifySession at h
  obtain ⟨t', h1, h⟩ := Outcome.bind_eq_ok.1 h
  obtain ⟨name, h2, h⟩ := Outcome.bind_eq_ok.1 h
  obtain ⟨a, _, h⟩ := Outcome.bind_eq_ok.1 h
  obtain ⟨b, _, h⟩ := Outcome.bind_eq_ok.1 h
  obtain ⟨c, _, h⟩ := Outcome.bind_eq_ok.1 h
  obtain ⟨_, _, h⟩ := Outcome.bind_eq_ok.1 h
  obtain ⟨_, _, h⟩ := Outcome.bind_eq_ok.1 h
  cases h
  dsimp only at ht
  split at ht
  next hr =>
    obtain rfl := Option.some.inj ht
    unfold chooseTranscript at h1
    cases hrv : request.reveal with
    | none => rw [hrv] at hr; cases hr
    | some q =>
      rw [hrv] at h1
      dsimp only at h1
      split at h1
      · cases h1
      · split at h1
        · cases h1
        · split at h1
          · cases h1
          · split at h1
            · cases h1
            · cases h1; rfl
  · cases ht

/-- An output comes from a message of the history. -/
theorem output_message (env : Env) (cs : List VCall) (s : VState) (i : Nat) (out : VerifierOutput) (t : PartialTranscript)
    (ho : (s.run env cs).2[i]? = some (.output out)) (ht : out.transcript = some t) :
    (∃ msg, VCall.verify (some msg) ∈ cs ∧ msg.transcript = some t) ∨
      ∃ vm msg, s = .verifying vm msg ∧ msg.transcript = some t := by
  induction cs generalizing s i with
  | nil => simp [VState.run] at ho
  | cons c cs ih =>
    have hrun : (s.run env (c :: cs)).2 = (s.call env c).2.1 :: ((s.call env c).1.run env cs).2 := rfl
    rw [hrun] at ho
    cases i with
    | zero =>
      simp only [List.getElem?_cons_zero, Option.some.injEq] at ho
      cases s with
      | gone => cases c <;> cases ho
      | committed v =>
        cases c with
        | verify m => cases m <;> cases ho
        | accept b => cases ho
        | reject r b => cases ho
      | verifying v m =>
        cases c with
        | verify x => cases x <;> cases ho
        | reject r b => cases b <;> cases ho
        | accept b =>
          cases b with
          | false => cases ho
          | true =>
            simp only [VState.call] at ho
            split at ho
            · cases ho
            · split at ho
              next hv => cases ho; exact .inr ⟨v, m, rfl, verifySession_transcript hv ht⟩
              · cases ho
              · cases ho
    | succ i =>
      rcases ih _ i (by simpa using ho) with ⟨msg, hm, hmt⟩ | ⟨vm, msg, hs, hmt⟩
      · exact .inl ⟨msg, List.mem_cons_of_mem _ hm, hmt⟩
      · cases s with
        | gone => cases c <;> cases hs
        | committed v =>
          cases c with
          | verify m =>
            cases m with
            | none => cases hs
            | some m => cases hs; exact .inl ⟨_, by simp, hmt⟩
          | accept b => cases hs
          | reject r b => cases hs
        | verifying v m =>
          cases c with
          | verify x => cases x <;> (cases hs; exact .inr ⟨_, _, rfl, hmt⟩)
          | reject r b => cases b <;> cases hs
          | accept b =>
            cases b with
            | false => cases hs
            | true =>
              simp only [VState.call] at hs
              split at hs
              · cases hs
              · split at hs <;> cases hs

theorem decoded_wellFormed {cs : List VCall} (h : DecodedCalls cs) : WellFormedCalls cs := fun msg t hm ht => by
  obtain ⟨c, hc⟩ := h msg t hm ht
  exact (deserialize_zero hc).1

/-- **C135** Whatever the prover sends: the partial transcript of an output is the session's data with everything that is
not revealed set to zero. -/
theorem C135_redacted (env : Env) (k : KeyBytes) (vm : ZkVm) (hk : HoldsKeys vm env.keys k) (hw : WellFormed env.tls)
    (cs : List VCall) (hcs : DecodedCalls cs) (i : Nat) (out : VerifierOutput) (t : PartialTranscript)
    (ho : ((VState.committed vm).run env cs).2[i]? = some (.output out)) (ht : out.transcript = some t) :
    Redacts (sessionData env.aes k env.tls) t.authed t := by
  obtain ⟨_, msg, _, _, _, _, _, _, htrue⟩ := C95_every_output env k vm hk hw cs (decoded_wellFormed hcs) i out ho
  obtain ⟨_, h1, h2, h3, h4⟩ := htrue.transcript t ht
  have hz : ∀ d i, i ∉ t.authed d → i < (t.data d).length → (t.data d)[i]? = some 0 := by
    rcases output_message env cs _ i out t ho ht with ⟨m, hm, hmt⟩ | ⟨_, _, h, _⟩
    · obtain ⟨c, hc⟩ := hcs m t hm hmt
      exact (deserialize_zero hc).2
    · cases h
  have hlen : ∀ d, (t.data d).length = ((sessionData env.aes k env.tls).data d).length := by
    intro d; cases d
    · exact h1
    · exact h2
  refine ⟨hlen, fun _ => rfl, fun d x hx => ?_, fun d x hx hl => ?_⟩
  · cases d
    · exact h3 x hx
    · exact h4 x hx
  · exact hz d x hx (by rw [hlen d]; exact hl)

/-- **C135** What a user finds in all of the data of an output, also with the accessors for data that may not be
authenticated: if it has no zero byte, it stands in the session's data at the same place, and all of it was revealed. -/
theorem C135_found (env : Env) (k : KeyBytes) (vm : ZkVm) (hk : HoldsKeys vm env.keys k) (hw : WellFormed env.tls)
    (cs : List VCall) (hcs : DecodedCalls cs) (i : Nat) (out : VerifierOutput) (t : PartialTranscript)
    (ho : ((VState.committed vm).run env cs).2[i]? = some (.output out)) (ht : out.transcript = some t)
    (d : Direction) (before text after : Bytes) (htext : t.data d = before ++ text ++ after) (hnz : ∀ x ∈ text, x ≠ 0) :
    (∃ before' after', (sessionData env.aes k env.tls).data d = before' ++ text ++ after' ∧
      before'.length = before.length) ∧
    ∀ j < text.length, before.length + j ∈ t.authed d := by
  have hr := C135_redacted env k vm hk hw cs hcs i out t ho ht
  have hlen := hr.len d
  have hat : ∀ j (hj : j < text.length), (t.data d)[before.length + j]? = some text[j] := by
    intro j hj
    rw [htext, List.append_assoc, List.getElem?_append_right (by omega), Nat.add_sub_cancel_left,
      List.getElem?_append_left hj, List.getElem?_eq_getElem hj]
  have hauth : ∀ j < text.length, before.length + j ∈ t.authed d := by
    intro j hj
    refine Classical.byContradiction fun hn => ?_
    have hz := hr.hidden d _ hn (by
      rw [← hlen]
      exact (List.getElem?_eq_some_iff.1 (hat j hj)).1)
    rw [hat j hj] at hz
    exact hnz _ (List.getElem_mem hj) (Option.some.inj hz)
  refine ⟨⟨((sessionData env.aes k env.tls).data d).take before.length,
    ((sessionData env.aes k env.tls).data d).drop (before.length + text.length), ?_, ?_⟩, hauth⟩
  · have hb : before.length + text.length ≤ ((sessionData env.aes k env.tls).data d).length := by
      rw [← hlen, htext]; simp
    have hmid : (((sessionData env.aes k env.tls).data d).drop before.length).take text.length = text := by
      apply List.ext_getElem?
      intro j
      rw [List.getElem?_take]
      split
      next hj => rw [List.getElem?_drop, ← hr.shown d _ (hauth j hj), hat j hj, List.getElem?_eq_getElem hj]
      next hj => rw [List.getElem?_eq_none (by omega)]
    generalize (sessionData env.aes k env.tls).data d = l at hb hmid ⊢
    calc l = l.take before.length ++ l.drop before.length := (List.take_append_drop _ _).symm
      _ = l.take before.length ++ ((l.drop before.length).take text.length ++ (l.drop before.length).drop text.length) := by
        rw [List.take_append_drop, List.take_append_drop, List.take_append_drop]
      _ = _ := by rw [hmid, List.drop_drop, List.append_assoc]
  · rw [List.length_take]
    have : before.length ≤ ((sessionData env.aes k env.tls).data d).length := by
      rw [← hlen, htext]; simp
    omega

/-- Example for `C135_redacted` and `C135_found`: the partial transcript of the example is decoded, the history gives an
output with it, and two bytes without a zero are found in it. -/
example :
    (match exPartial.compress with
      | some c => match PartialTranscript.deserialize c with
        | .ok t => decide (t = exPartial ∧ t.sent.take 2 = exData.sent.take 2 ∧ t.sent.drop 2 = [0, 0, 0] ∧
          ∀ x ∈ t.sent.take 2, x ≠ 0)
        | _ => false
      | none => false) = true ∧
    (match ((VState.committed (exZkVm exFillEnd)).run exEnv
        [.verify (some ⟨exProveRequest, exIdentity, some exPartial⟩), .accept true]).2 with
      | [.request _, .output o] => decide (o.transcript = some exPartial)
      | _ => false) = true := by decide +kernel

end Tlsn.Protocol
