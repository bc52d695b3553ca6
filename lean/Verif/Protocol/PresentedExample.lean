import Verif.Protocol.Presented
import Verif.Protocol.ApplicationExample

/-! # A presentation of a session of the client, the leader, the follower and the notary -/

namespace Tlsn.Protocol.ApplicationExample

open Tlsn.Client.LeaderExample (backend asked transcript?)
open Tlsn.MpcExample (leaderWorld random)

set_option maxRecDepth 100000

theorem view_wf : WellFormed env.tls :=
  (C131_session joint valid env.aes (fun _ _ _ _ => ⟨fun _ _ => rfl, fun _ _ => rfl⟩) keys hasKeys).1

theorem view_data : sessionData env.aes keys env.tls = data := by
  have h : (sessionData env.aes keys env.tls).sent = data.sent ∧ (sessionData env.aes keys env.tls).received = data.received := by decide +kernel
  cases e : sessionData env.aes keys env.tls with
  | mk a b =>
    rw [e] at h
    cases h.1
    cases h.2
    rfl

theorem view_binding : env.tls.binding = some ⟨[4, 8, 9]⟩ := by decide +kernel

theorem view_time : env.tls.time = leaderWorld.now := by decide +kernel

theorem keys_held (fill : Nat → Byte) : HoldsKeys (zkVm fill) env.keys keys := by
  obtain ⟨⟨a, b⟩, ⟨c, d⟩, ⟨e, f⟩, ⟨g, h⟩⟩ := holdsKeys
  exact ⟨⟨a, b⟩, ⟨c, d⟩, ⟨e, f⟩, ⟨g, h⟩⟩

theorem statement_provable : Provable env data exCerts [1, 2] identity statement.config := by
  refine ⟨fun r hr => ?_, fun q hq => ?_, fun _ => ⟨_, view_binding, by rw [view_time]; decide +kernel⟩⟩
  · obtain rfl := Option.some.inj hr
    exact ⟨RangeSet.endD_le_iff.1 (by decide +kernel), RangeSet.endD_le_iff.1 (by decide +kernel)⟩
  · simp only [statement, ProveRequest.hashes, ProveConfig.toRequest, CommitConfig.toRequest, Option.map_some,
      List.map_cons, List.map_nil, List.mem_cons, List.not_mem_nil, or_false] at hq
    subst hq
    exact ⟨by decide +kernel, RangeSet.endD_le_iff.1 (by decide +kernel)⟩

/-- All hypotheses of `C100_application_partial` hold of a presentation of the session of the example, which shows the third byte that the
caller wrote. -/
example (uid : Vector Byte 16) : ∃ (s : NotaryRun) (v : CryptoProvider) (p : Presentation) (out : PresentationOutput)
    (pt : PartialTranscript),
    s.Of joint ∧ s.Valid exCrypto ∧ SameHashes s.env.hc exCrypto.hash ∧ v.hash = exCrypto.hash ∧ v.dom = exCrypto.dom ∧
    OnlySigned v ⟨1, [9]⟩ ([s].map (·.attestation.header)) ∧ p.attestation.header.version < 2 ^ 32 ∧
    out.attestation.body.Representable ∧ p.attestation.body.proof.leafCount = s.attestation.body.fieldCount ∧
    p.verify true v = .ok out ∧ out.attestation.body.verifyingKey.data = ⟨1, [9]⟩ ∧
    out.serverName = some [1, 2] ∧ out.transcript = some pt ∧ pt.authed .sent = RangeSet.ofRange 2 3 := by
  have h0 := C101_end_to_end true exCrypto exCrypto env keys exCerts rfl view_wf [1, 2] identity statement
    (by rw [view_data]; exact statement_provable) rfl (zkVm fun _ => 0) (keys_held _) exCrypto_ok.2.2
    exCrypto_ok.1 rfl rfl exCrypto_ok.2.1 (by rw [view_data]; decide +kernel) ⟨[4, 8, 9]⟩ view_binding (by rw [view_time]; decide +kernel) .v12
  rw [view_data] at h0
  obtain ⟨vpEnd, -, h⟩ := h0
  obtain ⟨pout, vout, hrun, hok, h⟩ := h (zkVm fun a => vpEnd.mem.getD a 0) (keys_held _) ⟨rfl, rfl, rfl, rfl⟩
    ⟨(fun _ hm => nomatch hm), (fun _ hx => nomatch hx)⟩ (fun a ha => by
      simp only [zkVm, List.getD_eq_getElem?_getD, List.getElem?_eq_getElem ha, Option.getD_some])
  simp only [RoundOk, statement] at hok
  obtain ⟨_, _, heq, -, -, -, e1, e2, e3, e4⟩ := hok
  simp only [Prod.mk.injEq, PResult.proved.injEq, VResult.output.injEq] at heq
  obtain ⟨rfl, rfl⟩ := heq
  have hsec : pout.secrets = [⟨.sent, RangeSet.ofRange 2 3, 1, Vector.replicate 16 5⟩] := by
    obtain ⟨x, hx⟩ := List.length_eq_one_iff.1 e3
    have := (e4 0 _ rfl).1
    rw [hx] at this ⊢
    simpa using this
  have hcom : ∃ d, vout.commitments = [⟨.sent, RangeSet.ofRange 2 3, d⟩] := by
    obtain ⟨x, hx⟩ := List.length_eq_one_iff.1 e2
    obtain ⟨-, f, msg, -, -, this⟩ := e4 0 _ rfl
    rw [hx] at this
    rw [e1, hx]
    exact ⟨_, congrArg (fun x => [x]) (Option.some.inj this)⟩
  obtain ⟨d, hcom⟩ := hcom
  rw [hsec] at h
  let req : Request := ⟨1, 1, (ServerCertOpening.mk identity (Vector.replicate 16 3)).commit exDom
    ⟨1, fun m => ((exCircuits 1).getD (fun _ => Vector.replicate 32 0) m).toList⟩, []⟩
  obtain ⟨a, ha⟩ : ∃ a, NotaryBuilds exCrypto (AttestationConfig.default [1]) req (notaryOps env.tls .v12 ⟨[4, 8, 9]⟩ vout) uid a := by
    rw [C54_builds_iff]
    · refine ⟨by simp [AttestationConfig.default, req], by simp [AttestationConfig.default, HashAlgId.sha256, req],
        ?_, rfl, rfl, ⟨_, List.mem_cons_self⟩, ⟨_, List.mem_cons_of_mem _ List.mem_cons_self⟩⟩
      intro v hv
      obtain rfl := Option.some.inj hv
      rfl
    · intro s hs m
      obtain rfl := Option.some.inj hs
      rfl
  obtain ⟨_, sg, -, q2, b0, b3, -, -, b1, b2, q3, -, -, q4⟩ := C54_contents _ _ _ _ _ a ha
  obtain rfl := Option.some.inj q2
  replace b1 : a.body.extensions.map (·.data) = [] := b1
  replace b2 : a.body.transcriptCommitments.map (·.data) = vout.commitments := b2
  have b3 : (⟨env.tls.time, .v12, ⟨(collectCiphertext env.tls.sent).length % 2 ^ 32,
      (collectCiphertext env.tls.recv).length % 2 ^ 32⟩⟩ : ConnectionInfo) = _ := Option.some.inj b3
  rw [hcom] at b2
  have e5 : a.body.extensions = [] := List.map_eq_nil_iff.1 b1
  have hrep : a.body.Representable := by
    intro f hf
    simp only [Body.fields, e5, List.map_nil, List.append_nil, List.mem_append, List.mem_cons,
      List.not_mem_nil, or_false, List.mem_map] at hf
    rcases hf with (rfl | rfl | rfl | rfl) | ⟨g, hg, rfl⟩
    · trivial
    · simp only [FieldData.Representable, ← b3]; decide +kernel
    · trivial
    · trivial
    · have : g.data ∈ a.body.transcriptCommitments.map (·.data) := List.mem_map_of_mem hg
      rw [b2] at this
      rw [List.mem_singleton.1 this]
      intro x hx
      obtain rfl : x = (2, 3) := List.mem_singleton.1 hx
      decide
  have hcount : a.body.fieldCount ≤ 2 ^ 32 := by
    have l2 := congrArg List.length b2
    simp only [List.length_map, List.length_singleton] at l2
    simp only [Body.fieldCount, e5, l2, List.length_nil]
    decide
  obtain ⟨p, out, k0, k2, k3, -, pt, k4, k5⟩ := h { hashAlg := 1 } (Vector.replicate 16 3) req _ (AttestationConfig.default [1]) uid a
    [.reveal (RangeSet.ofRange 2 3) .sent] greedyCover
    ⟨⟨[0, 0, 3], [0, 0], RangeSet.ofRange 2 3, ∅⟩, [⟨.sent, RangeSet.ofRange 2 3, 1, Vector.replicate 16 5⟩]⟩
    greedyCover_contract rfl ha hcount (by decide +kernel)
  have hnew : AttestationProof.new exCrypto a = .ok p.attestation := by
    unfold PresentationBuilder.build at k0
    cases e : AttestationProof.new exCrypto a with
    | ok x => rw [e] at k0; obtain rfl := Outcome.ok.inj k0; rfl
    | err x => rw [e] at k0; cases k0
    | panic => rw [e] at k0; cases k0
  obtain ⟨m1, m2⟩ := (C23_verify_iff _ _ _ _).1 k2
  obtain ⟨n1, n2, -⟩ := (C22_verify_iff _ _ _ _).1 m1
  have hout : out.attestation = a := by
    obtain ⟨p', w1, w2⟩ := C21_complete true exCrypto exCrypto _ _ _ uid a ha exCrypto_ok.1 rfl rfl exCrypto_ok.2.1 hcount
    rw [hnew] at w1
    obtain rfl := Outcome.ok.inj w1
    rw [w2] at m1
    exact (Except.ok.inj m1).symm
  have hhead : p.attestation.header = a.header := by rw [← hout, n1]
  let v : CryptoProvider := { exCrypto with signature := fun _ => some fun _ m _ => decide (m = a.header.bcs) }
  obtain ⟨t, ht⟩ := Option.isSome_iff_exists.1
    (show (data.toPartial (RangeSet.ofRange 0 2) (RangeSet.ofRange 0 2)).isSome = true by decide +kernel)
  have hmsg : proverMsg statement.config [1, 2] identity data =
      some ⟨statement.config.toRequest, some ([1, 2], identity), some t⟩ := by
    simp [proverMsg, proveRequestMsg, statement, ht]
  refine ⟨⟨env, keys, zkVm fun a => vpEnd.mem.getD a 0, _, 1, vout, .v12, ⟨[4, 8, 9]⟩, _, req, uid, a⟩, v, p, out, pt,
    ⟨valid, hasKeys, rfl, fun _ _ _ _ => ⟨fun _ _ => rfl, fun _ _ => rfl⟩⟩,
    ⟨keys_held _, view_wf, ?_, rounds_run hmsg hrun, view_binding, ha, hrep⟩, exCrypto_ok.2.2, rfl, rfl, ?_, ?_, by rw [hout]; exact hrep,
    leafCount_of_new hnew, ?_, ?_, k3, k4, (k5.authed .sent).trans (by decide +kernel)⟩
  · intro msg u hmem hu
    simp only [List.mem_cons, VCall.verify.injEq, Option.some.injEq, List.not_mem_nil, or_false] at hmem
    rcases hmem with rfl | h
    · obtain rfl := Option.some.inj hu
      have : (match data.toPartial (RangeSet.ofRange 0 2) (RangeSet.ofRange 0 2) with
        | some t => decide (t.sentAuthed.endD ≤ t.sent.length ∧ t.receivedAuthed.endD ≤ t.received.length)
        | none => false) = true := by decide +kernel
      rw [ht] at this
      exact PartialTranscript.wf_iff.2 (of_decide_eq_true this)
    · cases h
  · intro alg sv m sig e1 e2
    obtain rfl := Option.some.inj e1
    exact ⟨a.header, by simp, by simpa [v] using e2⟩
  · rw [hhead, q3]; decide
  · refine (C23_verify_iff _ _ _ _).2 ⟨(C22_verify_iff _ _ _ _).2 ⟨n1, n2, _, rfl, ?_⟩, m2⟩
    simp [hhead]
  · rw [hout]; exact b0

end Tlsn.Protocol.ApplicationExample
