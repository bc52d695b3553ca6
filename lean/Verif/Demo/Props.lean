import Verif.Demo.Model

/-! # C136: what the example verifiers accept -/

namespace Tlsn.Demo

open Age (domain contains contains_iff)

/-! ## Specification -/

/-- What a user of the example relies on when it returns a transcript: the identity of the server was verified for the session's
ephemeral key, the transcript is the session's data with the hidden bytes zero, the session's sent data name the server and the
received data name the author, both in revealed bytes. -/
structure Reliable (env : Protocol.Env) (data : Transcript) (t : PartialTranscript) : Prop where
  identity : ∃ (certs : CertVerifier) (hsd : HandshakeData) (key : ServerEphemKey), env.certs = some certs ∧ env.tls.binding = some key ∧
    hsd.verify certs env.tls.time key domain = .ok ()
  redacted : Redacts data t.authed t
  host : ∃ a b, data.sent = a ++ domain ++ b ∧ ∀ j < domain.length, a.length + j ∈ t.sentAuthed
  book : ∃ a b, data.received = a ++ author ++ b ∧ ∀ j < author.length, a.length + j ∈ t.receivedAuthed

/-- What the prover sends is decoded. -/
def Decoded (msg : Option Protocol.ProveMsg) : Prop :=
  ∀ m t, msg = some m → m.transcript = some t → ∃ c, PartialTranscript.deserialize c = .ok t

/-- The commitment protocol leaves the verifier with the keys of the session. -/
def KeepsKeys (k : KeyBytes) (env : Protocol.Env) (vm : ZkVm) : Prop := HoldsKeys vm env.keys k ∧ WellFormed env.tls

/-! ## Proofs -/

theorem checkOutput_ok {utf8 : Bytes → Bool} {out : VerifierOutput} {t : PartialTranscript} :
    checkOutput utf8 out = .ok t ↔ out.serverName = some domain ∧ out.transcript = some t ∧ utf8 t.sent = true ∧
      utf8 t.received = true ∧ (∃ a b, t.sent = a ++ domain ++ b) ∧ ∃ a b, t.received = a ++ author ++ b := by
  rw [← contains_iff, ← contains_iff]
  obtain ⟨name, tr, cs⟩ := out
  unfold checkOutput
  cases name with
  | none => simp
  | some name =>
    cases tr with
    | none => simp
    | some t' =>
      simp only [Option.some.injEq]
      by_cases h1 : utf8 t'.sent = false
      · rw [if_pos h1]
        refine ⟨(fun h => nomatch h), ?_⟩
        rintro ⟨-, rfl, h, -⟩
        rw [h] at h1; cases h1
      rw [if_neg h1]
      by_cases h2 : contains t'.sent domain = false
      · rw [if_pos h2]
        refine ⟨(fun h => nomatch h), ?_⟩
        rintro ⟨-, rfl, -, -, h, -⟩
        rw [h] at h2; cases h2
      rw [if_neg h2]
      by_cases h3 : utf8 t'.received = false
      · rw [if_pos h3]
        refine ⟨(fun h => nomatch h), ?_⟩
        rintro ⟨-, rfl, -, h, -⟩
        rw [h] at h3; cases h3
      rw [if_neg h3]
      by_cases h4 : contains t'.received author = false
      · rw [if_pos h4]
        refine ⟨(fun h => nomatch h), ?_⟩
        rintro ⟨-, rfl, -, -, -, h⟩
        rw [h] at h4; cases h4
      rw [if_neg h4]
      by_cases h5 : name = domain
      · rw [if_neg (fun h => h h5)]
        simp only [Bool.not_eq_false] at h1 h2 h3 h4
        constructor
        · intro h; cases h; exact ⟨h5, rfl, h1, h3, h2, h4⟩
        · rintro ⟨-, rfl, -⟩; rfl
      · rw [if_pos h5]
        exact ⟨(fun h => nomatch h), fun h => (h5 h.1).elim⟩

theorem afterCommit_ok {utf8 : Bytes → Bool} {env : Protocol.Env} {vm : ZkVm} {k : KeyBytes} (hk : KeepsKeys k env vm)
    {msg : Option Protocol.ProveMsg} (hm : Decoded msg) {t : PartialTranscript} (h : afterCommit utf8 env vm msg = .ok t) :
    Reliable env (sessionData env.aes k env.tls) t := by
  cases msg with
  | none => cases h
  | some msg =>
    unfold afterCommit at h
    dsimp only at h
    split at h
    · cases h
    split at h
    next r out hrun =>
      have hcs : Protocol.DecodedCalls [.verify (some msg), .accept true] := by
        intro m t hm' ht
        simp only [List.mem_cons, Protocol.VCall.verify.injEq, Option.some.injEq, List.not_mem_nil, or_false] at hm'
        rcases hm' with rfl | hm'
        · exact hm _ t rfl ht
        · cases hm'
      have hout : ((Protocol.VState.committed vm).run env [.verify (some msg), .accept true]).2[1]? = some (.output out) := by
        rw [hrun]; rfl
      obtain ⟨j, m, certs, hj, hcj, -, -, hc, htrue⟩ := Protocol.C95_every_output env k vm hk.1 hk.2 _
        (Protocol.decoded_wellFormed hcs) 1 out hout
      obtain ⟨hn, ht, -, -, ⟨a, b, hab⟩, a', b', hab'⟩ := checkOutput_ok.1 h
      obtain ⟨⟨c, d, hcd, hlc⟩, h1⟩ := Protocol.C135_found env k vm hk.1 hk.2 _ hcs 1 out t hout ht .sent a domain b hab (by decide)
      obtain ⟨⟨c', d', hcd', hlc'⟩, h2⟩ := Protocol.C135_found env k vm hk.1 hk.2 _ hcs 1 out t hout ht .received a' author b' hab'
        (by decide)
      refine ⟨?_, Protocol.C135_redacted env k vm hk.1 hk.2 _ hcs 1 out t hout ht, ⟨c, d, hcd, ?_⟩, ⟨c', d', hcd', ?_⟩⟩
      · have hname := htrue.name
        rw [hn] at hname
        cases hh : m.handshake with
        | none => rw [hh] at hname; cases hname
        | some p =>
          obtain ⟨n, hsd⟩ := p
          rw [hh] at hname
          simp only [Option.map_some, Option.some.injEq] at hname
          subst hname
          obtain ⟨key, hb, hv⟩ := htrue.identity _ _ hh
          exact ⟨certs, hsd, key, hc, hb, hv⟩
      · rw [hlc]; exact h1
      · rw [hlc']; exact h2
    · cases h
    · cases h

/-- **C136** The basic example: whatever the prover proposes and sends, if the verifier returns a transcript then the proposal was
for MPC, of the same version and within the limits, and what the user sees is true of the session with the server. -/
theorem C136_basic {P : Type} (show_ : Protocol.Version → Protocol.Version → String) (own : Protocol.Version) (utf8 : Bytes → Bool)
    (run : MpcTlsConfig → Option (Protocol.Env × ZkVm)) (keys : MpcTlsConfig → KeyBytes)
    (hrun : ∀ c env vm, run c = some (env, vm) → KeepsKeys (keys c) env vm)
    (proposal : Option (Protocol.CommitMsg MpcTlsConfig P)) (msg : Option Protocol.ProveMsg) (hm : Decoded msg) (t : PartialTranscript)
    (h : basicVerifier show_ own utf8 run proposal msg = .ok t) :
    ∃ c env vm, proposal = some ⟨.mpc c, own⟩ ∧ c.maxSentData ≤ 4096 ∧ c.maxRecvData ≤ 16384 ∧ run c = some (env, vm) ∧
      Reliable env (sessionData env.aes (keys c) env.tls) t := by
  unfold basicVerifier at h
  cases proposal with
  | none => cases h
  | some p =>
    obtain ⟨cfg, ver⟩ := p
    unfold Protocol.verifierCommit at h
    dsimp only at h
    by_cases hv : ver = own
    · rw [if_neg (fun x => x hv)] at h
      subst hv
      cases cfg with
      | proxy c => cases h
      | mpc c =>
        dsimp only at h
        split at h
        · cases h
        split at h
        · cases h
        next h1 h2 =>
          split at h
          · cases h
          next env vm hr =>
            exact ⟨c, env, vm, rfl, Nat.le_of_not_lt h1, Nat.le_of_not_lt h2, hr, afterCommit_ok (hrun c env vm hr) hm h⟩
    · rw [if_pos hv] at h
      cases h

/-- **C136** The proxy example: the same, in either mode. -/
theorem C136_proxy {M P : Type} (show_ : Protocol.Version → Protocol.Version → String) (own : Protocol.Version) (utf8 : Bytes → Bool)
    (run : Protocol.TlsCommitConfig M P → Option (Protocol.Env × ZkVm)) (keys : Protocol.TlsCommitConfig M P → KeyBytes)
    (hrun : ∀ c env vm, run c = some (env, vm) → KeepsKeys (keys c) env vm)
    (proposal : Option (Protocol.CommitMsg M P)) (msg : Option Protocol.ProveMsg) (hm : Decoded msg) (t : PartialTranscript)
    (h : proxyVerifier show_ own utf8 run proposal msg = .ok t) :
    ∃ c env vm, proposal = some ⟨c, own⟩ ∧ run c = some (env, vm) ∧ Reliable env (sessionData env.aes (keys c) env.tls) t := by
  unfold proxyVerifier at h
  cases proposal with
  | none => cases h
  | some p =>
    obtain ⟨cfg, ver⟩ := p
    unfold Protocol.verifierCommit at h
    dsimp only at h
    by_cases hv : ver = own
    · rw [if_neg (fun x => x hv)] at h
      subst hv
      dsimp only at h
      split at h
      · cases h
      next env vm hr => exact ⟨cfg, env, vm, rfl, hr, afterCommit_ok (hrun cfg env vm hr) hm h⟩
    · rw [if_pos hv] at h
      cases h

/-! ## Honest provers -/

theorem contains_redacted {data : Transcript} {S : Direction → RangeSet} {t : PartialTranscript} (hr : Redacts data S t) (d : Direction)
    (text : Bytes) (h : ∃ a b, data.data d = a ++ text ++ b ∧ ∀ j < text.length, a.length + j ∈ S d) :
    ∃ a b, t.data d = a ++ text ++ b := by
  obtain ⟨a, b, hab, hS⟩ := h
  have hlen := hr.len d
  refine ⟨(t.data d).take a.length, (t.data d).drop (a.length + text.length), ?_⟩
  have hmid : ((t.data d).drop a.length).take text.length = text := by
    apply List.ext_getElem?
    intro j
    rw [List.getElem?_take]
    split
    next hj =>
      rw [List.getElem?_drop, hr.shown d _ (hS j hj), hab, List.append_assoc, List.getElem?_append_right (by omega),
        Nat.add_sub_cancel_left, List.getElem?_append_left hj]
    next hj => rw [List.getElem?_eq_none (by omega)]
  generalize t.data d = l at hmid ⊢
  calc l = l.take a.length ++ l.drop a.length := (List.take_append_drop _ _).symm
    _ = l.take a.length ++ ((l.drop a.length).take text.length ++ (l.drop a.length).drop text.length) := by
      rw [List.take_append_drop, List.take_append_drop, List.take_append_drop]
    _ = _ := by rw [hmid, List.drop_drop, List.append_assoc]

/-- The decision of the examples on a request. -/
def decision (q : ProveRequest) : Option (Option String) :=
  if q.serverIdentity = false then some (some "expecting to verify the server name") else none

/-- **C136** Honest parties: a prover that proves its identity and reveals a part of the session that has the name of the server
in the sent data and the author in the received data is accepted, with just what it reveals (if that is UTF-8). -/
theorem C136_honest (utf8 : Bytes → Bool) (env : Protocol.Env) (k : KeyBytes) (certs : CertVerifier) (hcerts : env.certs = some certs)
    (hw : WellFormed env.tls) (hsd : HandshakeData) (config : ProveConfig) (blinders : Nat → Blinder)
    (hp : Protocol.Provable env (sessionData env.aes k env.tls) certs domain hsd config)
    (hid : config.serverIdentity = true) (S R : RangeSet) (hrev : config.reveal = some (S, R))
    (hhost : ∃ a b, (sessionData env.aes k env.tls).sent = a ++ domain ++ b ∧ ∀ j < domain.length, a.length + j ∈ S)
    (hauthor : ∃ a b, (sessionData env.aes k env.tls).received = a ++ author ++ b ∧ ∀ j < author.length, a.length + j ∈ R)
    (hutf : ∀ t, (sessionData env.aes k env.tls).toPartial S R = some t → utf8 t.sent = true ∧ utf8 t.received = true)
    (vp : ZkVm) (hkp : HoldsKeys vp env.keys k) :
    ∃ vpEnd msg t, Protocol.proverAfter env (sessionData env.aes k env.tls) (some vp) [⟨config, blinders, decision⟩] = some vpEnd ∧
      Protocol.proverMsg config domain hsd (sessionData env.aes k env.tls) = some msg ∧
      (sessionData env.aes k env.tls).toPartial S R = some t ∧
      ∀ vv : ZkVm, HoldsKeys vv env.keys k → InStep vv.fill vp vv → Agree vp vv →
        (∀ a < vpEnd.mem.length, some (vv.fill a) = vpEnd.mem[a]?) →
        afterCommit utf8 env vv (some msg) = .ok t := by
  obtain ⟨vpEnd, h1, h2⟩ := Protocol.C96_all_rounds env k certs hcerts hw domain hsd [⟨config, blinders, decision⟩]
    (by simpa using hp) vp hkp
  have hb := hp.reveal _ hrev
  obtain ⟨t, ht, hred⟩ := C01_to_partial_redacts (sessionData env.aes k env.tls) S R hb.1 hb.2
  have hmsg : Protocol.proverMsg config domain hsd (sessionData env.aes k env.tls) =
      some ⟨config.toRequest, some (domain, hsd), some t⟩ := by
    simp [Protocol.proverMsg, proveRequestMsg, hrev, ht, hid]
  have hreq : config.toRequest.serverIdentity = true := hid
  refine ⟨vpEnd, _, t, h1, hmsg, ht, fun vv hkv hst hag hF => ?_⟩
  obtain ⟨vvEnd, -, h4⟩ := h2 vv hkv hst hag hF
  have hx := h4.2 0 _ _ rfl rfl
  have hdec : decision config.toRequest = none := by simp [decision, hreq]
  simp only [Protocol.RoundOk, hdec] at hx
  obtain ⟨pout, out, hx, ho, -, hn, -⟩ := hx
  have hrun : ((Protocol.VState.committed vv).run env
      [.verify (some ⟨config.toRequest, some (domain, hsd), some t⟩), .accept true]).2 =
      [.request config.toRequest, .output out] := by
    have := congrArg Prod.snd hx
    simp only [Protocol.round, hmsg, Protocol.Round.answer, hdec] at this
    simp only [Protocol.VState.run]
    rw [this]
    rfl
  unfold afterCommit
  dsimp only
  rw [if_neg (by rw [hreq]; simp), hrun]
  dsimp only
  refine checkOutput_ok.2 ⟨by rw [hn, hid]; rfl, ?_, (hutf t ht).1, (hutf t ht).2, ?_, ?_⟩
  · rw [ho, hrev]; exact ht
  · exact contains_redacted hred .sent domain hhost
  · exact contains_redacted hred .received author hauthor

end Tlsn.Demo
