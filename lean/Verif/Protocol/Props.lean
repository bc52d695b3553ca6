import Verif.Protocol.Model
import Verif.Protocol.Grow

/-! # Properties of the statements of a session -/

namespace Tlsn.Protocol

/-! ## Specification -/

/-- What an output says of the session's data, for the message it answers: the revealed bytes are the session's, the
identity was verified against the binding of the session, and the hashes commit to the session's data. -/
structure TrueOutput (hc : HashCircuits) (certs : CertVerifier) (tls : SessionView) (data : Transcript) (msg : ProveMsg)
    (out : VerifierOutput) : Prop where
  asked : out.transcript.isSome ↔ msg.request.reveal.isSome
  transcript : ∀ t, out.transcript = some t → msg.request.reveal = some (t.sentAuthed, t.receivedAuthed) ∧
    t.sent.length = data.sent.length ∧ t.received.length = data.received.length ∧
    (∀ x ∈ t.sentAuthed, t.sent[x]? = data.sent[x]?) ∧ (∀ x ∈ t.receivedAuthed, t.received[x]? = data.received[x]?)
  name : out.serverName = msg.handshake.map (·.1)
  identity : ∀ name hsd, msg.handshake = some (name, hsd) →
    ∃ key, tls.binding = some key ∧ hsd.verify certs tls.time key name = .ok ()
  hashes : Pairwise2 (Commits hc data) msg.request.hashes out.commitments

/-- The messages of a history have well-formed partial transcripts: the decoder checks it. -/
def WellFormedCalls (cs : List VCall) : Prop :=
  ∀ msg t, VCall.verify (some msg) ∈ cs → msg.transcript = some t → t.WF

/-! ## The verifier, against any prover -/

/-- The states of a history that began with the keys. -/
def Good (env : Env) (k : KeyBytes) : VState → Prop
  | .committed vm => HoldsKeys vm env.keys k
  | .verifying vm msg => HoldsKeys vm env.keys k ∧ ∀ t, msg.transcript = some t → t.WF
  | .gone => True

theorem good_call {env : Env} {k : KeyBytes} (hw : WellFormed env.tls) {s : VState} (hs : Good env k s) (c : VCall)
    (hc : WellFormedCalls [c]) : Good env k (s.call env c).1 := by
  cases s with
  | gone => cases c <;> exact trivial
  | committed vm =>
    cases c with
    | verify m =>
      cases m with
      | none => exact trivial
      | some msg => exact ⟨hs, fun t ht => hc msg t (by simp) ht⟩
    | accept b => exact hs
    | reject r b => exact hs
  | verifying vm msg =>
    cases c with
    | verify m => cases m <;> exact hs
    | reject r b => cases b <;> first | exact trivial | exact hs.1
    | accept b =>
      cases b with
      | false => exact trivial
      | true =>
        simp only [VState.call]
        split
        · exact trivial
        · split
          · next h => exact hs.1.mono (verifySession_grew _ _ _ _ _ hs.1 hw hs.2 h)
          · exact trivial
          · exact trivial

theorem output_call {env : Env} {k : KeyBytes} (hw : WellFormed env.tls) {s : VState} (hs : Good env k s) (c : VCall)
    {out : VerifierOutput} (ho : (s.call env c).2.1 = .output out) :
    ∃ vm msg certs, s = .verifying vm msg ∧ env.certs = some certs ∧
      TrueOutput env.hc certs env.tls (sessionData env.aes k env.tls) msg out := by
  cases s with
  | gone => cases c <;> cases ho
  | committed vm =>
    cases c with
    | verify m => cases m <;> cases ho
    | accept b => cases ho
    | reject r b => cases ho
  | verifying vm msg =>
    cases c with
    | verify m => cases m <;> cases ho
    | reject r b => cases b <;> cases ho
    | accept b =>
      cases b with
      | false => cases ho
      | true =>
        simp only [VState.call] at ho
        split at ho
        · cases ho
        · next certs hcerts =>
          split at ho
          · next vm' out' h =>
            cases ho
            obtain ⟨h1, h2, h3, h4, h5⟩ := C33_output env.aes env.hc env.e certs vm env.keys k env.tls msg.request
              msg.handshake msg.transcript hs.1 hw hs.2 _ _ h
            exact ⟨vm, msg, certs, rfl, hcerts, h1, fun t ht => by
              obtain ⟨_, a, b, c, d, e⟩ := h2 t ht
              exact ⟨c, a, b, d, e⟩, h3, h4, h5⟩
          · cases ho
          · cases ho

/-- **C95** In every history of a verifier, whatever the prover sends and however often the user accepts, rejects or
makes a call that fails: an output answers the last request received, that request is the one the user was
shown, and the output is true of the one session the keys belong to. -/
theorem C95_every_output (env : Env) (k : KeyBytes) (vm : ZkVm) (hk : HoldsKeys vm env.keys k) (hw : WellFormed env.tls)
    (cs : List VCall) (hcs : WellFormedCalls cs) (i : Nat) (out : VerifierOutput)
    (ho : ((VState.committed vm).run env cs).2[i]? = some (.output out)) :
    ∃ j msg certs, j < i ∧ cs[j]? = some (.verify (some msg)) ∧
      ((VState.committed vm).run env cs).2[j]? = some (.request msg.request) ∧
      (∀ l, j < l → l < i → ((VState.committed vm).run env cs).2[l]? = some .noSuchCall) ∧
      env.certs = some certs ∧ TrueOutput env.hc certs env.tls (sessionData env.aes k env.tls) msg out := by
  have key : ∀ (cs : List VCall) (s : VState) (_ : Good env k s) (_ : WellFormedCalls cs) (i : Nat)
      (_ : (s.run env cs).2[i]? = some (.output out)),
      (∃ j msg certs, j < i ∧ cs[j]? = some (.verify (some msg)) ∧ (s.run env cs).2[j]? = some (.request msg.request) ∧
        (∀ l, j < l → l < i → (s.run env cs).2[l]? = some .noSuchCall) ∧
        env.certs = some certs ∧ TrueOutput env.hc certs env.tls (sessionData env.aes k env.tls) msg out) ∨
      ∃ vm msg certs, s = .verifying vm msg ∧ (∀ l, l < i → (s.run env cs).2[l]? = some .noSuchCall) ∧
        env.certs = some certs ∧ TrueOutput env.hc certs env.tls (sessionData env.aes k env.tls) msg out := by
    intro cs
    induction cs with
    | nil => intro s _ _ i h; simp [VState.run] at h
    | cons c cs ih =>
      intro s hs hcs i h
      have hc1 : WellFormedCalls [c] := fun m t hm => hcs m t (by simp at hm; simp [hm])
      have hc2 : WellFormedCalls cs := fun m t hm => hcs m t (List.mem_cons_of_mem _ hm)
      have hrun : (s.run env (c :: cs)).2 = (s.call env c).2.1 :: ((s.call env c).1.run env cs).2 := rfl
      rw [hrun] at h ⊢
      cases i with
      | zero =>
        obtain ⟨vm, msg, certs, h1, h2, h3⟩ := output_call hw hs c (by simpa using h)
        exact .inr ⟨vm, msg, certs, h1, fun l hl => absurd hl (by omega), h2, h3⟩
      | succ i =>
        rcases ih _ (good_call hw hs c hc1) hc2 i (by simpa using h) with
          ⟨j, msg, certs, h1, h2, h3, h4, h5⟩ | ⟨vm, msg, certs, h1, h2, h3⟩
        · refine .inl ⟨j + 1, msg, certs, by omega, by simpa using h2, by simpa using h3, fun l hl hl' => ?_, h5⟩
          obtain ⟨l, rfl⟩ : ∃ m, l = m + 1 := ⟨l - 1, by omega⟩
          simpa using h4 l (by omega) (by omega)
        · cases s with
          | gone => cases c <;> cases h1
          | committed v =>
            cases c with
            | accept b => cases h1
            | reject r b => cases h1
            | verify m =>
              cases m with
              | none => cases h1
              | some m =>
                cases h1
                refine .inl ⟨0, msg, certs, by omega, rfl, rfl, fun l hl hl' => ?_, h3⟩
                obtain ⟨l, rfl⟩ : ∃ m, l = m + 1 := ⟨l - 1, by omega⟩
                simpa using h2 l (by omega)
          | verifying v m =>
            refine .inr ⟨v, m, certs, rfl, ?_⟩
            have hsame : ((VState.verifying v m).call env c).2.1 = .noSuchCall ∧ msg = m := by
              cases c with
              | verify x => cases x <;> (cases h1; exact ⟨rfl, rfl⟩)
              | reject r b => cases b <;> cases h1
              | accept b =>
                cases b with
                | false => cases h1
                | true =>
                  simp only [VState.call] at h1
                  split at h1
                  · cases h1
                  · split at h1 <;> cases h1
            obtain ⟨e1, rfl⟩ := hsame
            refine ⟨fun l hl => ?_, h3⟩
            cases l with
            | zero => simp [e1]
            | succ l => simpa using h2 l (by omega)
  rcases key cs (.committed vm) hk hcs i ho with h | ⟨_, _, _, h, _⟩
  · exact h
  · cases h

/-- **C95** Two outputs of a session never contradict each other: a byte that both reveal is the same, and the
lengths are. -/
theorem C95_consistent (env : Env) (k : KeyBytes) (vm : ZkVm) (hk : HoldsKeys vm env.keys k) (hw : WellFormed env.tls)
    (cs : List VCall) (hcs : WellFormedCalls cs) (i j : Nat) (o₁ o₂ : VerifierOutput) (t₁ t₂ : PartialTranscript)
    (h₁ : ((VState.committed vm).run env cs).2[i]? = some (.output o₁))
    (h₂ : ((VState.committed vm).run env cs).2[j]? = some (.output o₂))
    (ht₁ : o₁.transcript = some t₁) (ht₂ : o₂.transcript = some t₂) :
    t₁.sent.length = t₂.sent.length ∧ t₁.received.length = t₂.received.length ∧
    (∀ x ∈ t₁.sentAuthed, x ∈ t₂.sentAuthed → t₁.sent[x]? = t₂.sent[x]?) ∧
    (∀ x ∈ t₁.receivedAuthed, x ∈ t₂.receivedAuthed → t₁.received[x]? = t₂.received[x]?) := by
  obtain ⟨_, _, _, _, _, _, _, _, a⟩ := C95_every_output env k vm hk hw cs hcs i o₁ h₁
  obtain ⟨_, _, _, _, _, _, _, _, b⟩ := C95_every_output env k vm hk hw cs hcs j o₂ h₂
  obtain ⟨_, a1, a2, a3, a4⟩ := a.transcript t₁ ht₁
  obtain ⟨_, b1, b2, b3, b4⟩ := b.transcript t₂ ht₂
  exact ⟨by rw [a1, b1], by rw [a2, b2], fun x hx hx' => by rw [a3 x hx, b3 x hx'],
    fun x hx hx' => by rw [a4 x hx, b4 x hx']⟩

/-- **C95** A request that the user rejects has no effect on what follows. -/
theorem C95_rejected_no_effect (env : Env) (vm : ZkVm) (msg : ProveMsg) (reason : Option String) (cs : List VCall) :
    (VState.committed vm).run env (.verify (some msg) :: .reject reason true :: cs) =
      (((VState.committed vm).run env cs).1,
        .request msg.request :: .rejected :: ((VState.committed vm).run env cs).2) := rfl

theorem run_gone (env : Env) (cs : List VCall) : (VState.gone.run env cs).2 = cs.map fun _ => .noSuchCall := by
  induction cs with
  | nil => rfl
  | cons c cs ih =>
    have : (VState.gone.run env (c :: cs)).2 = .noSuchCall :: (VState.gone.run env cs).2 := by cases c <;> rfl
    rw [this, ih]; rfl

/-- **C95** After a call that failed the verifier gives nothing any more. -/
theorem C95_failed_is_final (env : Env) (s : VState) (cs : List VCall) (i j : Nat) (hij : i < j) (hj : j < cs.length)
    (hi : (s.run env cs).2[i]? = some .failed ∨ (s.run env cs).2[i]? = some .panicked) :
    (s.run env cs).2[j]? = some .noSuchCall := by
  induction cs generalizing s i j with
  | nil => simp at hj
  | cons c cs ih =>
    have hrun : (s.run env (c :: cs)).2 = (s.call env c).2.1 :: ((s.call env c).1.run env cs).2 := rfl
    rw [hrun] at hi ⊢
    obtain ⟨j, rfl⟩ : ∃ m, j = m + 1 := ⟨j - 1, by omega⟩
    cases i with
    | succ i => simpa using ih _ i j (by omega) (by simpa using hj) (by simpa using hi)
    | zero =>
      have hg : (s.call env c).1 = .gone := by
        simp only [List.getElem?_cons_zero, Option.some.injEq] at hi
        cases s with
        | gone => cases c <;> rfl
        | committed v =>
          cases c with
          | verify m => cases m <;> first | rfl | (rcases hi with hi | hi <;> cases hi)
          | accept b => rcases hi with hi | hi <;> cases hi
          | reject r b => rcases hi with hi | hi <;> cases hi
        | verifying v m =>
          cases c with
          | verify x => cases x <;> (rcases hi with hi | hi <;> cases hi)
          | reject r b => cases b <;> first | rfl | (rcases hi with hi | hi <;> cases hi)
          | accept b =>
            cases b with
            | false => rfl
            | true =>
              simp only [VState.call] at hi ⊢
              split at hi
              · rfl
              · split at hi
                · rcases hi with hi | hi <;> cases hi
                · rfl
                · rfl
      rw [hg, run_gone]
      simp only [List.length_cons, Nat.add_lt_add_iff_right] at hj
      simp [hj]

/-! ## Honest parties -/

/-- A statement that the session can support. -/
structure Provable (env : Env) (data : Transcript) (certs : CertVerifier) (name : ServerName) (hsd : HandshakeData)
    (config : ProveConfig) : Prop where
  reveal : ∀ r, config.reveal = some r → (∀ x ∈ r.1, x < data.sent.length) ∧ ∀ x ∈ r.2, x < data.received.length
  hashes : ∀ q ∈ config.toRequest.hashes, (env.hc q.2.2).isSome ∧ ∀ x ∈ q.2.1, x < (data.data q.1).length
  identity : config.serverIdentity = true →
    ∃ key, env.tls.binding = some key ∧ hsd.verify certs env.tls.time key name = .ok ()

/-- What both users get for a statement: the reason of the rejection, or outputs that fit together. -/
def RoundOk (hc : HashCircuits) (data : Transcript) (name : ServerName) (r : Round) (x : PResult × VResult) : Prop :=
  match r.decide r.config.toRequest with
  | some reason => x = (.rejected reason, .rejected)
  | none => ∃ pout out, x = (.proved pout, .output out) ∧
      out.transcript = r.config.reveal.bind (fun q => data.toPartial q.1 q.2) ∧
      (out.transcript.isSome ↔ r.config.reveal.isSome) ∧
      out.serverName = (if r.config.serverIdentity then some name else none) ∧
      out.commitments = pout.commitments ∧ pout.commitments.length = r.config.toRequest.hashes.length ∧
      pout.secrets.length = r.config.toRequest.hashes.length ∧
      ∀ (n : Nat) (q : Direction × RangeSet × HashAlgId), r.config.toRequest.hashes[n]? = some q → pout.secrets[n]? = some ⟨q.1, q.2.1, q.2.2, r.blinders n⟩ ∧
        ∃ f msg, hc q.2.2 = some f ∧ BytesAt (data.data q.1) q.2.1 msg ∧
          pout.commitments[n]? = some ⟨q.1, q.2.1, ⟨q.2.2, (f (msg ++ (r.blinders n).toList)).toList⟩⟩

theorem pairwise2_cons {α β : Type} {P : α → β → Prop} {a : α} {b : β} {l : List α} {m : List β} (h : P a b)
    (ht : Pairwise2 P l m) : Pairwise2 P (a :: l) (b :: m) := by
  refine ⟨by simp [ht.1], fun n x y hx hy => ?_⟩
  cases n with
  | zero => simp only [List.getElem?_cons_zero, Option.some.injEq] at hx hy; subst hx; subst hy; exact h
  | succ n => exact ht.2 n x y (by simpa using hx) (by simpa using hy)

theorem round_accept {env : Env} {k : KeyBytes} {certs : CertVerifier} (hcerts : env.certs = some certs)
    (hw : WellFormed env.tls) (name : ServerName) (hsd : HandshakeData) (r : Round)
    (hr : Provable env (sessionData env.aes k env.tls) certs name hsd r.config)
    (hd : r.decide r.config.toRequest = none) {vp : ZkVm} (hkp : HoldsKeys vp env.keys k) :
    ∃ vp', (proverRest env (sessionData env.aes k env.tls) vp r.config r.blinders (some r.response)).1 = some vp' ∧
      Grew vp vp' ∧ ∀ vv : ZkVm, HoldsKeys vv env.keys k → Sync vv.fill vp vv →
        (∀ a < vp'.mem.length, some (vv.fill a) = vp'.mem[a]?) →
        ∃ vv', (round env name hsd (sessionData env.aes k env.tls) (some vp, .committed vv) r).1 = (some vp', .committed vv') ∧
          Sync vv.fill vp' vv' ∧ HoldsKeys vv' env.keys k ∧
          RoundOk env.hc (sessionData env.aes k env.tls) name r
            (round env name hsd (sessionData env.aes k env.tls) (some vp, .committed vv) r).2 := by
  obtain ⟨vp', pout, pt, h1, h2, h3, h4, h5, h6⟩ := honest_session env.aes env.hc env.e certs r.blinders r.config name hsd
    hkp hw hr.reveal hr.hashes hr.identity
  obtain ⟨pt', _, m1, m2, _⟩ := honest_message env.aes r.config name hsd hr.reveal
  have hpt : pt' = pt := by rw [m1] at h4; simpa using h4
  subst hpt
  have hptb : pt' = r.config.reveal.bind (fun q => (sessionData env.aes k env.tls).toPartial q.1 q.2) := by
    have h4' := h4
    unfold proveRequestMsg at h4'
    cases hrv : r.config.reveal with
    | none => rw [hrv] at h4'; simpa using h4'.symm
    | some q =>
      rw [hrv] at h4'
      simp only [Option.map_eq_some_iff, Prod.mk.injEq, true_and] at h4'
      obtain ⟨p, hp, rfl⟩ := h4'
      exact hp.symm
  have hresp : r.response = .ok := by simp [Round.response, hd]
  refine ⟨vp', by simp [proverRest, hresp, h1], h2, fun vv hkv hs hF => ?_⟩
  obtain ⟨vv', h7, h8⟩ := h6 vv hkv hs hF
  have hrnd : round env name hsd (sessionData env.aes k env.tls) (some vp, .committed vv) r =
      ((some vp', .committed vv'), .proved pout,
        .output ⟨if r.config.serverIdentity then some name else none, pt', pout.commitments⟩) := by
    simp only [round, proverMsg, h4, Option.map_some, VState.call, Round.answer, hd, hcerts, h7, proverRest, h1]
  rw [hrnd]
  refine ⟨vv', rfl, h8, hkv.mono (verifySession_grew _ _ _ _ _ hkv hw m2 h7), ?_⟩
  simp only [RoundOk, hd]
  exact ⟨pout, _, rfl, hptb, h5, rfl, rfl, h3.len, h3.slen, fun n q hq => ⟨h3.sec n q hq, by
    have hn : n < pout.commitments.length := by rw [h3.len]; exact (List.getElem?_eq_some_iff.1 hq).1
    obtain ⟨f, msg, f1, f2, f3⟩ := h3.com n q _ hq (List.getElem?_eq_getElem hn)
    exact ⟨f, msg, f1, f2, by rw [List.getElem?_eq_getElem hn, f3]⟩⟩⟩

theorem round_reject {env : Env} {k : KeyBytes} {certs : CertVerifier} (name : ServerName) (hsd : HandshakeData) (r : Round)
    (hr : Provable env (sessionData env.aes k env.tls) certs name hsd r.config) {reason : Option String}
    (hd : r.decide r.config.toRequest = some reason) (vp vv : ZkVm) :
    round env name hsd (sessionData env.aes k env.tls) (some vp, .committed vv) r =
      ((some vp, .committed vv), .rejected reason, .rejected) := by
  obtain ⟨pt, _, m1, _⟩ := honest_message env.aes r.config name hsd hr.reveal
  simp only [round, proverMsg, m1, Option.map_some, VState.call, Round.answer, hd, proverRest]

/-- **C96** Honest parties can do any number of statements in one session.  Whatever the user of the verifier decides
on each, every statement ends as it should for both: a rejected one with its reason and without effect, an accepted one
with outputs that fit together.  What the verifier's VM is told of the prover's inputs is what the prover had
(`fill`), at the end of the session. -/
theorem C96_all_rounds (env : Env) (k : KeyBytes) (certs : CertVerifier) (hcerts : env.certs = some certs)
    (hw : WellFormed env.tls) (name : ServerName) (hsd : HandshakeData) (rs : List Round)
    (hrs : ∀ r ∈ rs, Provable env (sessionData env.aes k env.tls) certs name hsd r.config) (vp : ZkVm)
    (hkp : HoldsKeys vp env.keys k) :
    ∃ vpEnd, proverAfter env (sessionData env.aes k env.tls) (some vp) rs = some vpEnd ∧
      ∀ vv : ZkVm, HoldsKeys vv env.keys k → InStep vv.fill vp vv → Agree vp vv →
        (∀ a < vpEnd.mem.length, some (vv.fill a) = vpEnd.mem[a]?) →
        ∃ vvEnd, (rounds env name hsd (sessionData env.aes k env.tls) (some vp, .committed vv) rs).1 =
            (some vpEnd, .committed vvEnd) ∧
          Pairwise2 (RoundOk env.hc (sessionData env.aes k env.tls) name) rs
            (rounds env name hsd (sessionData env.aes k env.tls) (some vp, .committed vv) rs).2 := by
  suffices h : ∃ vpEnd, proverAfter env (sessionData env.aes k env.tls) (some vp) rs = some vpEnd ∧ Grew vp vpEnd ∧
      ∀ vv : ZkVm, HoldsKeys vv env.keys k → Sync vv.fill vp vv →
        (∀ a < vpEnd.mem.length, some (vv.fill a) = vpEnd.mem[a]?) →
        ∃ vvEnd, (rounds env name hsd (sessionData env.aes k env.tls) (some vp, .committed vv) rs).1 =
            (some vpEnd, .committed vvEnd) ∧
          Pairwise2 (RoundOk env.hc (sessionData env.aes k env.tls) name) rs
            (rounds env name hsd (sessionData env.aes k env.tls) (some vp, .committed vv) rs).2 by
    obtain ⟨vpEnd, h1, _, h2⟩ := h
    exact ⟨vpEnd, h1, fun vv a b c d => h2 vv a ⟨b, c⟩ d⟩
  induction rs generalizing vp with
  | nil => exact ⟨vp, rfl, .refl _, fun vv _ _ _ => ⟨vv, rfl, rfl, fun i a b h => by simp at h⟩⟩
  | cons r rs ih =>
    have hr := hrs r (by simp)
    have hrs' : ∀ r ∈ rs, Provable env (sessionData env.aes k env.tls) certs name hsd r.config :=
      fun r h => hrs r (List.mem_cons_of_mem _ h)
    cases hd : r.decide r.config.toRequest with
    | some reason =>
      obtain ⟨vpEnd, h1, h2, h3⟩ := ih hrs' vp hkp
      have hresp : r.response = .rejected reason := by simp [Round.response, hd]
      refine ⟨vpEnd, by simp only [proverAfter, proverRest, hresp]; exact h1, h2, fun vv hkv hs hF => ?_⟩
      obtain ⟨vvEnd, h4, h5⟩ := h3 vv hkv hs hF
      simp only [rounds, round_reject name hsd r hr hd vp vv]
      exact ⟨vvEnd, h4, pairwise2_cons (by simp [RoundOk, hd]) h5⟩
    | none =>
      obtain ⟨vp', g1, g2, g3⟩ := round_accept hcerts hw name hsd r hr hd hkp
      obtain ⟨vpEnd, h1, h2, h3⟩ := ih hrs' vp' (hkp.mono g2)
      refine ⟨vpEnd, by rw [proverAfter, g1]; exact h1, g2.trans h2, fun vv hkv hs hF => ?_⟩
      obtain ⟨m, hm⟩ := h2
      obtain ⟨vv', e1, e2, e3, e4⟩ := g3 vv hkv hs fun a ha => by
        rw [hF a (by rw [hm, List.length_append]; omega), hm, List.getElem?_append_left ha]
      have hfill : vv'.fill = vv.fill := e2.step.fill
      obtain ⟨vvEnd, h4, h5⟩ := h3 vv' e3 (by rw [hfill]; exact e2) (by rw [hfill]; exact hF)
      simp only [rounds, e1]
      exact ⟨vvEnd, h4, pairwise2_cons e4 h5⟩

/-! ## The start -/

/-- **C97** Both parties start their setup if and only if they run the same version and the user of the verifier
accepts the configuration that the prover has asked for; both then have that configuration. -/
theorem C97_agree {M P : Type} (sv : Version → Version → String) (vp vv : Version) (config : TlsCommitConfig M P)
    (decide : TlsCommitConfig M P → Option (Option String)) :
    (∀ c, (commitBoth sv vp vv config decide).1 = .setup c ↔ (vp = vv ∧ decide config = none ∧ c = config)) ∧
    (∀ c, (commitBoth sv vp vv config decide).2 = .setup c ↔ (vp = vv ∧ decide config = none ∧ c = config)) := by
  by_cases hv : vp = vv
  · subst hv
    cases hd : decide config with
    | none => simp [commitBoth, verifierCommit, commitMsg, verifierDecide, proverCommit, hd, eq_comm]
    | some r => simp [commitBoth, verifierCommit, commitMsg, verifierDecide, proverCommit, hd]
  · simp [commitBoth, verifierCommit, commitMsg, proverCommit, hv]

/-- **C97** A prover whose configuration is rejected gets the reason; one of another version gets the two versions and
the user of the verifier is never asked. -/
theorem C97_rejected {M P : Type} (sv : Version → Version → String) (vp vv : Version) (config : TlsCommitConfig M P)
    (decide : TlsCommitConfig M P → Option (Option String)) (reason : Option String) :
    (commitBoth sv vp vv config decide).1 = .rejected reason ↔
      ((vp = vv ∧ decide config = some reason) ∨ (vp ≠ vv ∧ reason = some (sv vp vv))) := by
  by_cases hv : vp = vv
  · subst hv
    cases hd : decide config with
    | none => simp [commitBoth, verifierCommit, commitMsg, verifierDecide, proverCommit, hd]
    | some r => simp [commitBoth, verifierCommit, commitMsg, verifierDecide, proverCommit, hd]
  · simp [commitBoth, verifierCommit, commitMsg, proverCommit, hv, eq_comm]

/-! ## Examples -/

def exEnv : Env := ⟨exAes, exCircuits, true, some exCerts, exKeyRefs, exTls⟩

def exHsd : HandshakeData := (exIdentity.map (·.2)).getD ⟨[], .rsaPkcs1Sha256, [], Vector.replicate 32 0, Vector.replicate 32 0, ⟨[]⟩⟩

/-- Three statements: one accepted, the same rejected, and one without identity and commitments accepted. -/
def exRounds : List Round :=
  [⟨exProveConfig, fun _ => Vector.replicate 16 5, fun _ => none⟩,
   ⟨exProveConfig, fun _ => Vector.replicate 16 6, fun _ => some (some "enough")⟩,
   ⟨⟨false, some (RangeSet.ofRange 1 3, ∅), none⟩, fun _ => Vector.replicate 16 7, fun r => if r.reveal.isSome then none else some none⟩]

/-- The statements of the example are provable, so that `C96_all_rounds` applies to them. -/
theorem exRounds_provable : ∀ r ∈ exRounds, Provable exEnv exData exCerts [1, 2] exHsd r.config := by
  have h1 : Provable exEnv exData exCerts [1, 2] exHsd exProveConfig := by
    refine ⟨fun r hr => ?_, fun q hq => ?_, fun _ => ?_⟩
    · obtain rfl := Option.some.inj hr
      exact ⟨RangeSet.endD_le_iff.1 (by decide +kernel), RangeSet.endD_le_iff.1 (by decide +kernel)⟩
    · simp only [exProveConfig, ProveRequest.hashes, ProveConfig.toRequest, CommitConfig.toRequest, Option.map_some,
        List.map_cons, List.map_nil, List.mem_cons, List.not_mem_nil, or_false] at hq
      subst hq
      exact ⟨by decide +kernel, RangeSet.endD_le_iff.1 (by decide +kernel)⟩
    · refine ⟨_, rfl, ?_⟩
      decide +kernel
  intro r hr
  simp only [exRounds, List.mem_cons, List.not_mem_nil, or_false] at hr
  rcases hr with rfl | rfl | rfl
  · exact h1
  · exact h1
  · refine ⟨fun r hr => ?_, (fun q hq => nomatch hq), (fun h => nomatch h)⟩
    obtain rfl := Option.some.inj hr
    exact ⟨RangeSet.endD_le_iff.1 (by decide +kernel), RangeSet.endD_le_iff.1 (by decide +kernel)⟩

/-- The prover's memory after the statements of the example. -/
def exFillEnd (a : Nat) : Byte :=
  match proverAfter exEnv exData (some (exZkVm fun _ => 0)) exRounds with
  | some vp => vp.mem.getD a 0
  | none => 0

/-- Example for `C95_every_output` and `C96_all_rounds`: the statements of the example, run. -/
example :
    (match (rounds exEnv [1, 2] exHsd exData (some (exZkVm fun _ => 0), .committed (exZkVm exFillEnd)) exRounds).2 with
      | [(.proved p, .output o), (.rejected (some "enough"), .rejected), (.proved _, .output o')] =>
        decide (o.commitments = p.commitments ∧ p.commitments.length = 1 ∧ o.serverName = some [1, 2] ∧
          o'.serverName = none ∧ o'.transcript = exData.toPartial (RangeSet.ofRange 1 3) ∅)
      | _ => false) = true := by decide +kernel

/-- Example for `C97_agree` and `C97_rejected`. -/
example :
    let v : Version := ⟨0, 1, 0, "alpha", ""⟩
    let sv := fun (_ _ : Version) => "versions"
    let ok := fun c : TlsCommitConfig Nat String => if c = .mpc 4 then none else some (some "too much")
    commitBoth sv v v (.mpc 4) ok = (.setup (.mpc 4), .setup (.mpc 4)) ∧
    commitBoth sv v v (.mpc 5) ok = (.rejected (some "too much"), .rejected (some "too much")) ∧
    commitBoth sv v { v with pre := "beta" } (.mpc 4) ok = (.rejected (some "versions"), .failed) := by decide

end Tlsn.Protocol
