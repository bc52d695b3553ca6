import Verif.Auth.Prove
import Verif.Proof.Lemmas

/-! # An honest prover and an honest verifier, together -/

namespace Tlsn

theorem bytesAt_unique {d : Bytes} {s : RangeSet} {a b : Bytes} (ha : BytesAt d s a) (hb : BytesAt d s b) : a = b := by
  have h1 := gather_bytesAt.2 ha
  have h2 := gather_bytesAt.2 hb
  rw [h1] at h2
  exact Option.some.inj h2

theorem proveCommitments_eq (hc : HashCircuits) (blinders : Nat → Blinder) (vm : ZkVm) (refs : TranscriptRefs)
    (config : ProveConfig) :
    proveCommitments hc blinders vm refs config =
      if config.toRequest.hashes = [] then .ok (vm, ⟨[], []⟩)
      else mapErr .hashSetup (proveHash hc blinders vm refs config.toRequest.hashes) >>= fun r =>
        .ok (r.1, ⟨(r.2.1.zip r.2.2).map (·.1), (r.2.1.zip r.2.2).map (·.2)⟩) := by
  unfold proveCommitments ProveRequest.hashes ProveConfig.toRequest
  cases config.transcriptCommit with
  | none => rfl
  | some c =>
    simp only [Option.map_some, CommitConfig.toRequest]
    by_cases h : c.commits = []
    · simp [h, CommitConfig.hasHash]
    · have h1 : c.hasHash = true := by
        unfold CommitConfig.hasHash
        cases hc : c.commits with
        | nil => exact absurd hc h
        | cons => rfl
      rw [if_pos h1]
      simp only [List.map_eq_nil_iff, h, if_false]
      rfl

theorem zip_fst {α β : Type} {a : List α} {b : List β} (h : a.length = b.length) : (a.zip b).map (·.1) = a := by
  rw [List.map_fst_zip]; omega

theorem zip_snd {α β : Type} {a : List α} {b : List β} (h : a.length = b.length) : (a.zip b).map (·.2) = b := by
  rw [List.map_snd_zip]; omega

/-- What the honest prover gets: commitments to the data with its blinders, and the secrets for them. -/
structure ProverGets (hc : HashCircuits) (data : Transcript) (blinders : Nat → Blinder)
    (l : List (Direction × RangeSet × HashAlgId)) (out : ProverOutput) : Prop where
  len : out.commitments.length = l.length
  slen : out.secrets.length = l.length
  com : ∀ (n : Nat) (q : Direction × RangeSet × HashAlgId) (c : PlaintextHash), l[n]? = some q → out.commitments[n]? = some c → ∃ f msg, hc q.2.2 = some f ∧
    BytesAt (data.data q.1) q.2.1 msg ∧ c = ⟨q.1, q.2.1, ⟨q.2.2, (f (msg ++ (blinders n).toList)).toList⟩⟩
  sec : ∀ (n : Nat) (q : Direction × RangeSet × HashAlgId), l[n]? = some q → out.secrets[n]? = some ⟨q.1, q.2.1, q.2.2, blinders n⟩

theorem holds_getElem {vm : ZkVm} {v : VmVec} {b : Bytes} (h : Holds vm v b) (j : Nat) (hj : j < v.len) :
    vm.mem[v.addr + j]? = b[j]? := by
  have := h.2
  rw [← this, ZkVm.read, List.getElem?_take_of_lt hj, List.getElem?_drop]

/-- The commitment phase of both parties. -/
theorem commit_step (hc : HashCircuits) (blinders : Nat → Blinder) {F : Nat → Byte} {vp vv : ZkVm} {ts tr : RangeSet}
    {data : Transcript} {refs : TranscriptRefs} (config : ProveConfig)
    (hs : Rep vp refs.sent ts data.sent) (hr : Rep vp refs.recv tr data.received)
    (hl : HashReqOk hc ts tr config.toRequest.hashes) :
    ∃ vp' pout, proveCommitments hc blinders vp refs config = .ok (vp', pout) ∧ Grew vp vp' ∧
      ProverGets hc data blinders config.toRequest.hashes pout ∧
      (Sync F vp vv → Rep vv refs.sent ts data.sent → Rep vv refs.recv tr data.received →
        (∀ a < vp'.mem.length, some (F a) = vp'.mem[a]?) →
        ∃ vv', verifyCommitments hc vv refs config.toRequest = .ok (vv', pout.commitments) ∧ Sync F vp' vv') := by
  rw [proveCommitments_eq]
  by_cases h : config.toRequest.hashes = []
  · rw [if_pos h, h]
    refine ⟨vp, ⟨[], []⟩, rfl, Grew.refl vp, ⟨rfl, rfl, by simp, by simp⟩, fun hsync _ _ _ => ⟨vv, ?_, hsync⟩⟩
    rw [verifyCommitments_eq, if_pos h]
  · rw [if_neg h]
    generalize hlq : config.toRequest.hashes = l at *
    obtain ⟨vp1, outs, e1, g1, ⟨p1, p2⟩, p3⟩ := hashCommitInner_spec hc (fun n => some (blinders n)) l 0 vp hs hr hl
    simp only [proveHash, e1, Outcome.bind_ok, Outcome.pure_eq, mapErr]
    have hlo : (hashOutputs outs (decodeAll vp1 (outs.map (·.hash))).2).length = (hashSecrets blinders outs).length := by
      simp [hashOutputs, hashSecrets, decodeAll_values]
    rw [zip_fst hlo, zip_snd hlo]
    have hcells : ∀ (n : Nat) (q : Direction × RangeSet × HashAlgId) (o : HashOut), l[n]? = some q → outs[n]? = some o → ∃ f msg, hc q.2.2 = some f ∧
        BytesAt (data.data q.1) q.2.1 msg ∧ vp1.read o.hash = (f (msg ++ (blinders n).toList)).toList ∧
        o.direction = q.1 ∧ o.idx = q.2.1 ∧ o.alg = q.2.2 ∧ Holds vp1 o.hash (f (msg ++ (blinders n).toList)).toList ∧
        o.blinder.len = 16 ∧ Holds vp1 o.blinder (blinders n).toList := by
      intro n q o hq ho
      obtain ⟨f, msg, b, t1, t2, t3, t4, _, t5, t6⟩ := p3 n q o hq ho
      obtain ⟨_, _, _, _, _, _, u4, u5, u6, _⟩ := p2 n q o hq ho
      have hb := t4 (blinders n) (by simp)
      rw [hb] at t3 t6
      exact ⟨f, msg, t1, t2, t3.2, u4, u5, u6, t3, t5, t6⟩
    refine ⟨_, _, rfl, g1.trans ⟨[], by rw [decodeAll_mem]; simp⟩, ⟨?_, ?_, ?_, ?_⟩, ?_⟩
    · simp [hashOutputs, decodeAll_values, p1]
    · simp [hashSecrets, p1]
    · intro n q c hq hcn
      simp only [hashOutputs, List.getElem?_map, Option.map_eq_some_iff] at hcn
      obtain ⟨⟨o, bs⟩, ho, rfl⟩ := hcn
      obtain ⟨ho1, ho2⟩ := List.getElem?_zip_eq_some.1 ho
      obtain ⟨f, msg, f1, f2, f3, f4, f5, f6, _⟩ := hcells n q o hq ho1
      rw [decodeAll_values] at ho2
      simp only [List.map_map, List.getElem?_map, ho1, Option.map_some, Function.comp_apply, Option.some.injEq] at ho2
      subst ho2
      exact ⟨f, msg, f1, f2, by simp [f3, f4, f5, f6]⟩
    · intro n q hq
      have hn : n < outs.length := by
        rw [← p1]; exact (List.getElem?_eq_some_iff.1 hq).1
      obtain ⟨f, msg, _, _, _, f4, f5, f6, _⟩ := hcells n q outs[n] hq (List.getElem?_eq_getElem hn)
      simp [hashSecrets, List.getElem?_mapIdx, List.getElem?_eq_getElem hn, f4, f5, f6]
    · intro hsync hs' hr' hF
      obtain ⟨vv1, outs', e2, g2, ⟨q1, q2⟩, q3⟩ := hashCommitInner_spec hc (fun _ => none) l 0 vv hs' hr' hl
      have hst := hashCommitInner_step hc blinders refs l 0 hsync
      rw [e1, e2] at hst
      generalize hx : (Outcome.ok (vp1, outs) : Outcome HashCommitError _) = x at hst
      generalize hy : (Outcome.ok (vv1, outs') : Outcome HashCommitError _) = y at hst
      cases hst with
      | err e => cases hx
      | panic => cases hx
      | ok hres =>
        rename_i a b
        simp only [Outcome.ok.injEq] at hx hy
        subst hx; subst hy
        obtain ⟨hs1, ho⟩ := hres
        simp only at hs1 ho
        subst ho
        have hreads : ∀ (n : Nat) (q : Direction × RangeSet × HashAlgId) (o : HashOut), l[n]? = some q → outs[n]? = some o →
            ∃ b, Holds vp1 o.hash b ∧ Holds vv1 o.hash b := by
          intro n q o hq ho
          obtain ⟨f, msg, f1, f2, f3, _, _, _, f7, f8, f9⟩ := hcells n q o hq ho
          obtain ⟨f', msg', b, t1, t2, t3, _, t5, _⟩ := q3 n q o hq ho
          obtain rfl : f = f' := by rw [f1] at t1; exact Option.some.inj t1
          obtain rfl : msg = msg' := bytesAt_unique f2 t2
          have hb : b = (blinders n).toList := by
            rw [t5 rfl]
            apply List.ext_getElem?
            intro j
            by_cases hj : j < 16
            · have h1 := holds_getElem f9 j (by omega)
              have hin := f9.1
              have h2 := hF (o.blinder.addr + j) (by rw [decodeAll_mem]; omega)
              rw [decodeAll_mem, h1] at h2
              rw [List.getElem?_map, List.getElem?_range' (by omega)]
              simp only [Option.map_some, Nat.one_mul, hsync.step.fill]
              exact h2
            · rw [List.getElem?_eq_none (by simp; omega), List.getElem?_eq_none (by simp; omega)]
          rw [hb] at t3
          exact ⟨_, f7, t3⟩
        refine ⟨(decodeAll vv1 (outs.map (·.hash))).1, ?_, ?_⟩
        · rw [verifyCommitments_eq, hlq, if_neg (by assumption)]
          simp only [verifyHash, e2, Outcome.bind_ok, Outcome.pure_eq, mapErr, decodeAll_values]
          congr 3
          apply List.map_congr_left
          intro v hv
          obtain ⟨o, ho, rfl⟩ := List.mem_map.1 hv
          obtain ⟨n, hn, rfl⟩ := List.getElem_of_mem ho
          have hn' : n < l.length := by omega
          obtain ⟨b, h1, h2⟩ := hreads n l[n] outs[n] (List.getElem?_eq_getElem hn') (List.getElem?_eq_getElem hn)
          rw [h1.2, h2.2]
        · refine ⟨hs1.step.decodeAll _, hs1.agree.grow ⟨[], by simp⟩ ⟨[], by simp⟩ hs1.step.mem ?_ ?_⟩
          · intro mk hmk _; rw [decodeAll_marks] at hmk; exact .inl hmk
          · intro x hx
            rw [decodeAll_ops] at hx
            simp only [List.mem_append, List.mem_map] at hx
            rcases hx with hx | hx
            · exact .inl hx
            · right
              obtain ⟨y, ⟨o, ho, rfl⟩, hxe⟩ := hx
              injection hxe with hxe
              subst hxe
              obtain ⟨n, hn, rfl⟩ := List.getElem_of_mem ho
              have hn' : n < l.length := by omega
              obtain ⟨b, h1, h2⟩ := hreads n l[n] outs[n] (List.getElem?_eq_getElem hn') (List.getElem?_eq_getElem hn)
              exact ⟨b, by simpa [Holds, ZkVm.read] using h1, by simpa [Holds, ZkVm.read] using h2⟩

/-- The message that the honest prover sends. -/
theorem honest_message (aes : AesFn) {k : KeyBytes} {tls : SessionView} (config : ProveConfig) (name : ServerName)
    (hsd : HandshakeData)
    (hrev : ∀ r, config.reveal = some r → (∀ x ∈ r.1, x < (sessionData aes k tls).sent.length) ∧
      ∀ x ∈ r.2, x < (sessionData aes k tls).received.length) :
    ∃ pt t, proveRequestMsg config name hsd (sessionData aes k tls) =
        some (config.toRequest, if config.serverIdentity then some (name, hsd) else none, pt) ∧
      (∀ u, pt = some u → u.WF) ∧
      chooseTranscript (collectCiphertext tls.sent) (collectCiphertext tls.recv) config.toRequest pt = .ok t ∧
      pt = (if config.toRequest.reveal.isSome then some t else none) ∧
      t.sentAuthed = (config.reveal.getD (∅, ∅)).1 ∧ t.receivedAuthed = (config.reveal.getD (∅, ∅)).2 ∧
      (∀ x ∈ t.sentAuthed, t.sent[x]? = (sessionData aes k tls).sent[x]?) ∧
      (∀ x ∈ t.receivedAuthed, t.received[x]? = (sessionData aes k tls).received[x]?) := by
  have hl1 := sent_length_eq aes k tls
  have hl2 := recv_length_eq aes k tls
  generalize sessionData aes k tls = data at *
  cases hr : config.reveal with
  | none =>
    refine ⟨none, _, by simp [proveRequestMsg, hr], by simp, by simp [chooseTranscript, ProveConfig.toRequest, hr]; rfl, ?_⟩
    refine ⟨by simp [ProveConfig.toRequest, hr], rfl, rfl, ?_, ?_⟩
    · intro x hx; exact absurd hx (RangeSet.not_mem_empty x)
    · intro x hx; exact absurd hx (RangeSet.not_mem_empty x)
  | some r =>
    obtain ⟨r1, r2⟩ := hrev r hr
    obtain ⟨p, hp, hred⟩ := C01_to_partial_redacts data r.1 r.2 r1 r2
    obtain ⟨e1, e2⟩ : p.sentAuthed = r.1 ∧ p.receivedAuthed = r.2 := by
      simp only [Transcript.toPartial, Option.bind_eq_bind, Option.bind_eq_some_iff, Option.pure_def,
        Option.some.injEq] at hp
      obtain ⟨_, _, _, _, rfl⟩ := hp
      exact ⟨rfl, rfl⟩
    have hlens : p.sent.length = data.sent.length := hred.len .sent
    have hlenr : p.received.length = data.received.length := hred.len .received
    refine ⟨some p, p, by simp [proveRequestMsg, hr, hp], ?_, ?_, by simp [ProveConfig.toRequest, hr], by simp [e1], by simp [e2], ?_, ?_⟩
    · intro u hu
      obtain rfl := Option.some.inj hu
      refine PartialTranscript.wf_iff.2 ⟨?_, ?_⟩
      · rw [e1, RangeSet.endD_le_iff, hlens]; exact r1
      · rw [e2, RangeSet.endD_le_iff, hlenr]; exact r2
    · obtain ⟨s, rr⟩ := r
      simp only [chooseTranscript, ProveConfig.toRequest, hr]
      rw [if_neg (by omega), if_neg (by simpa using e1), if_neg (by simpa using e2)]
    · intro x hx
      exact hred.shown .sent x (by rw [e1] at hx; exact hx)
    · intro x hx
      exact hred.shown .received x (by rw [e2] at hx; exact hx)

/-- The honest run of both parties. -/
theorem honest_session (aes : AesFn) (hc : HashCircuits) (e : Bool) (certs : CertVerifier) (blinders : Nat → Blinder)
    {vp : ZkVm} {keys : KeyRefs} {k : KeyBytes} {tls : SessionView} (config : ProveConfig) (name : ServerName)
    (hsd : HandshakeData) (hkp : HoldsKeys vp keys k) (hw : WellFormed tls)
    (hrev : ∀ r, config.reveal = some r → (∀ x ∈ r.1, x < (sessionData aes k tls).sent.length) ∧
      ∀ x ∈ r.2, x < (sessionData aes k tls).received.length)
    (hcom : ∀ q ∈ config.toRequest.hashes, (hc q.2.2).isSome ∧
      ∀ x ∈ q.2.1, x < ((sessionData aes k tls).data q.1).length)
    (hid : config.serverIdentity = true → ∃ key, tls.binding = some key ∧ hsd.verify certs tls.time key name = .ok ()) :
    ∃ vp' pout pt, proveSession aes hc e blinders vp keys (sessionData aes k tls) tls config = .ok (vp', pout) ∧
      Grew vp vp' ∧ ProverGets hc (sessionData aes k tls) blinders config.toRequest.hashes pout ∧
      proveRequestMsg config name hsd (sessionData aes k tls) =
        some (config.toRequest, if config.serverIdentity then some (name, hsd) else none, pt) ∧
      (pt.isSome ↔ config.reveal.isSome) ∧
      ∀ vv : ZkVm, HoldsKeys vv keys k → Sync vv.fill vp vv → (∀ a < vp'.mem.length, some (vv.fill a) = vp'.mem[a]?) →
        ∃ vv', verifySession aes hc e certs vv keys tls config.toRequest
            (if config.serverIdentity then some (name, hsd) else none) pt =
          .ok (vv', ⟨if config.serverIdentity then some name else none, pt, pout.commitments⟩) ∧
          Sync vv.fill vp' vv' := by
  obtain ⟨pt, t, m1, m2, m3, m4, m5, m6, m7, m8⟩ := honest_message aes config name hsd hrev
  obtain ⟨hl1, hl2, _, _⟩ := chooseTranscript_ok m3
  obtain ⟨hwf1, hwf2⟩ := PartialTranscript.wf_iff.1 (chooseTranscript_wf m2 m3)
  have hd1 := sent_length_eq aes k tls
  have hd2 := recv_length_eq aes k tls
  have hsub := commitSets_sub config.toRequest.hashes
  have hb1 : (commitSets config.toRequest.hashes (∅, ∅)).1.endD ≤ (sessionData aes k tls).sent.length :=
    RangeSet.endD_le_iff.2 fun x hx => by
      rcases (mem_commitSets _ _ x).1.1 hx with h0 | ⟨q, hq, h1, h2⟩
      · exact absurd h0 (RangeSet.not_mem_empty x)
      · have := (hcom q hq).2 x h2; rw [h1] at this; exact this
  have hb2 : (commitSets config.toRequest.hashes (∅, ∅)).2.endD ≤ (sessionData aes k tls).received.length :=
    RangeSet.endD_le_iff.2 fun x hx => by
      rcases (mem_commitSets _ _ x).2.1 hx with h0 | ⟨q, hq, h1, h2⟩
      · exact absurd h0 (RangeSet.not_mem_empty x)
      · have := (hcom q hq).2 x h2; rw [h1] at this; exact this
  have hids : checkIdentity certs tls (if config.serverIdentity then some (name, hsd) else none) =
      .ok (if config.serverIdentity then some name else none) := by
    cases hi : config.serverIdentity with
    | false => rfl
    | true =>
      obtain ⟨key, h1, h2⟩ := hid hi
      simp [checkIdentity, h1, h2]
  generalize hcm : commitSets config.toRequest.hashes (∅, ∅) = cm at hsub hb1 hb2
  have hp1 := authPre_sent hkp hw hd1 (reveal := t.sentAuthed) (by rw [hd1, ← hl1]; exact hwf1)
  obtain ⟨vp1, pe1, pg1, pm1, pc1⟩ := provePlaintext_spec aes e cm.1 hp1 hb1
  have hp2 := authPre_recv (hkp.mono pg1) hw hd2 (reveal := t.receivedAuthed) (by rw [hd2, ← hl2]; exact hwf2)
  obtain ⟨vp2, pe2, pg2, pm2, pc2⟩ := provePlaintext_spec aes e cm.2 hp2 hb2
  have repOf : ∀ (vm : ZkVm) (a : Nat) (T : RangeSet) (d : Bytes), T.endD ≤ d.length → a + T.len ≤ vm.mem.length →
      (∀ x b, (layout a T.ranges).addrAt x = some b → vm.mem[b]? = d[x]?) → Rep vm (layout a T.ranges) T d := by
    intro vm a T d h1 h2 h3
    refine ⟨a, rfl, h2, fun x b hb => ?_⟩
    have hx := RangeSet.mem_lt_endD (addrAt_layout_inv _ _ hb)
    have hlt : x < d.length := by omega
    exact ⟨d[x], by rw [h3 x b hb, List.getElem?_eq_getElem hlt], List.getElem?_eq_getElem hlt⟩
  have hT : ∀ (reveal commit : RangeSet) (n : Nat), reveal.endD ≤ n → commit.endD ≤ n →
      (allocRanges e reveal commit n).endD ≤ n := fun reveal commit n h1 h2 =>
    RangeSet.endD_le_iff.2 fun x hx => by
      rcases allocRanges_sub _ _ _ _ x hx with hx | hx
      · have := RangeSet.mem_lt_endD hx; omega
      · have := RangeSet.mem_lt_endD hx; omega
  have hrs := (repOf vp1 _ _ _ (hT _ _ _ hp1.reveal hb1) pm1 pc1).mono pg2
  have hrr := repOf vp2 _ _ _ (hT _ _ _ hp2.reveal hb2) pm2 pc2
  have hreq : HashReqOk hc (allocRanges e t.sentAuthed cm.1 (sessionData aes k tls).sent.length)
      (allocRanges e t.receivedAuthed cm.2 (sessionData aes k tls).received.length) config.toRequest.hashes := by
    intro q hq
    refine ⟨(hcom q hq).1, ?_⟩
    have := hsub q hq
    obtain ⟨d, idx, alg⟩ := q
    cases d with
    | sent => exact fun x hx => allocRanges_commit _ _ _ _ x (this x hx)
    | received => exact fun x hx => allocRanges_commit _ _ _ _ x (this x hx)
  obtain ⟨vp3, pout, pe3, pg3, pgets, _⟩ := commit_step hc blinders (F := vp.fill) (vv := vp) (data := sessionData aes k tls)
    (refs := ⟨_, _⟩) config hrs hrr hreq
  refine ⟨vp3, pout, pt, ?_, (pg1.trans pg2).trans pg3, pgets, m1, ?_, ?_⟩
  · simp only [proveSession, hcm, ← m5, ← m6, pe1, pe2, mapErr, Outcome.bind_ok, pe3]
  · rw [m4]
    show _ ↔ config.toRequest.reveal.isSome = true
    cases config.toRequest.reveal <;> simp
  · intro vv hkv hsync hF
    have hv1 := authPre_sent hkv hw hl1 hwf1
    have cellF : ∀ (T : RangeSet) (a0 : Nat) (vm : ZkVm) (d : Bytes), T.endD ≤ d.length → Grew vm vp3 →
        a0 + T.len ≤ vm.mem.length → (∀ x b, (layout a0 T.ranges).addrAt x = some b → vm.mem[b]? = d[x]?) →
        ∀ x a, (layout a0 T.ranges).addrAt x = some a → d[x]? = some (vv.fill a) := by
      intro T a0 vm d hTd hg hm hcell x a ha
      have hx := addrAt_layout_inv _ _ ha
      obtain ⟨j, _, h1, h2⟩ := addrAt_layout_mem a0 T hx
      rw [ha] at h2; simp at h2
      rw [totalLen_ranges] at h1
      have hlt : a < vm.mem.length := by omega
      have hlt3 : a < vp3.mem.length := by obtain ⟨m, hm⟩ := hg; rw [hm, List.length_append]; omega
      rw [← hcell x a ha, hF a hlt3, hg.getElem? hlt]
    obtain ⟨vp1', vv1, refs1, proof1, a1, b1, c1, s1, _, gv1, r1, _, rep1⟩ := plaintext_step aes e cm.1 hsync hp1 hv1
      hb1 (fun x hx => (m7 x hx).symm) (fun _ => ⟨rfl, rfl⟩) (fun x _ => rfl) m7
      (fun x hx hxr a ha => cellF _ _ vp1 _ (hT _ _ _ hp1.reveal hb1) (pg2.trans pg3) pm1 pc1 x a ha)
    rw [pe1] at a1
    simp only [Outcome.ok.injEq, Prod.mk.injEq] at a1
    obtain ⟨rfl, _⟩ := a1
    have hv2 := authPre_recv (hkv.mono gv1) hw hl2 hwf2
    obtain ⟨vp2', vv2, refs2, proof2, a2, b2, c2, s2, _, gv2, r2, _, rep2⟩ := plaintext_step aes e cm.2 s1 hp2 hv2
      hb2 (fun x hx => (m8 x hx).symm) (fun _ => ⟨rfl, rfl⟩) (fun x _ => rfl) m8
      (fun x hx hxr a ha => cellF _ _ vp2 _ (hT _ _ _ hp2.reveal hb2) pg3 pm2 pc2 x a ha)
    rw [pe2] at a2
    simp only [Outcome.ok.injEq, Prod.mk.injEq] at a2
    obtain ⟨rfl, _⟩ := a2
    obtain ⟨vp3', pout', a3, _, _, hvc⟩ := commit_step hc blinders (F := vv.fill) (vv := vv2) (data := sessionData aes k tls)
      (refs := ⟨_, _⟩) config hrs hrr hreq
    rw [pe3] at a3
    simp only [Outcome.ok.injEq, Prod.mk.injEq] at a3
    obtain ⟨rfl, rfl⟩ := a3
    subst r1; subst r2
    obtain ⟨vv3, b3, s3⟩ := hvc s2 (rep1.mono gv2) rep2 hF
    refine ⟨vv3, ?_, s3⟩
    simp only [verifySession, m3, hids, Outcome.bind_ok, hcm, b1, b2, b3, c1, c2, mapErr, Outcome.pure_eq, ← m4]

end Tlsn
