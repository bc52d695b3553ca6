import Verif.Session.Props

/-! # When a follower panics: C43 -/

namespace Tlsn

open Hmac Kex Mpc

theorem bind_eq_panic {ε α β : Type} {x : Outcome ε α} {g : α → Outcome ε β} (h : (x >>= g) = .panic) :
    x = .panic ∨ ∃ a, x = .ok a ∧ g a = .panic := by
  cases x with
  | ok a => exact .inr ⟨a, rfl, h⟩
  | err e => cases h
  | panic => exact .inl rfl

/-- The flush loop neither fails nor panics. -/
theorem flushPrf_total {S : Sha} {C : PrfCtx} (hC : C.Ok) {mode : MsMode} (hL : SeedLens C mode) {ops : List PrfOp}
    (hz : Sizes ops) (n : Nat) {p : Prf} {vm : Vm} {g : PrfFns} (h : PrfInv S C (p, vm) g) (hl : Link mode ops p g) :
    Hmac.flushPrf S n p vm = none ∨ ∃ r, Hmac.flushPrf S n p vm = some (.ok r) := by
  induction n generalizing p vm g with
  | zero =>
    unfold Hmac.flushPrf
    split
    · exact Or.inl rfl
    · exact Or.inr ⟨_, rfl⟩
  | succ n ih =>
    unfold Hmac.flushPrf
    split
    · rename_i hw
      rcases h.state with hs | ⟨hs, _⟩
      · obtain ⟨g1, vm1, hfl⟩ := (fns_flush hC h.le h.fns).2 (seedsFit hL hz hl)
        have hfl' := prf_flush_setup S p vm g hs
        rw [hfl] at hfl'
        obtain ⟨g', h1, h2, h3, h4, h5, h6⟩ := prf_flush_inv hC h hfl'
        rw [hfl']
        exact ih (h1.execute hC) (h2.link hl h4 h5)
      · simp only at hs
        unfold Prf.wantsFlush at hw; rw [hs] at hw; cases hw
    · exact Or.inr ⟨_, rfl⟩

theorem Core_flushPrf_total {D : Deps} {cfg : Limits} {n : Nat} {ops : List PrfOp} {c : Core} (h : CoreInv D cfg n ops c)
    (hz : Sizes ops) : c.flushPrf D ≠ .panic := by
  obtain ⟨C, g, hC, -, hi, hl, -, hL, -⟩ := prfRun_inv h.prfRun
  unfold Core.flushPrf
  rcases flushPrf_total hC hL hz D.rounds hi hl with e | ⟨⟨p, v⟩, e⟩ <;> rw [e] <;> simp

theorem liftKx_panic {α : Type} {a : α} {r : Outcome KxError Unit} (h : liftKx a r = .panic) : r = .panic := by
  rcases r with ⟨⟩ | _ | _
  · cases h
  · cases h
  · rfl

theorem liftPrf_panic {α : Type} {r : Outcome PrfError α} (h : liftPrf r = .panic) : r = .panic := by
  rcases r with _ | _ | _
  · cases h
  · cases h
  · rfl

theorem recv_no_panic (c : Core) (r : VecRef) : c.recv r ≠ .panic := by
  unfold Core.recv
  split <;> simp

/-- The key exchange panics only if a share conversion does. -/
theorem exchange_panic {D : Deps} {cfg : Limits} {n : Nat} {ops : List PrfOp} {c : Core} (h : CoreInv D cfg n ops c) (hz : Sizes ops)
    {fk : Point} (hk : c.ke.state = .followerKey fk (slotsAt D.add n)) {w : World} {key : Bytes}
    (hx : c.exchange D w key = .panic) : w.share0 = .panic ∨ w.share1 = .panic := by
  unfold Core.exchange at hx
  split at hx
  · cases hx
  · rename_i p hp
    have i0 : CoreInv D cfg n ops { c with ke := c.ke.setServerKey p } := h.congr rfl rfl rfl
    rcases bind_eq_panic hx with h1 | ⟨c1, h1, hx⟩
    · have h1 := liftKx_panic h1
      simp only [Kx.storeShares] at h1
      split at h1
      · generalize w.share0 = s0 at *
        generalize w.share1 = s1 at *
        rcases s0 with _ | _ | _ <;> rcases s1 with _ | _ | _ <;> simp at h1 <;> simp
      · cases h1
      · rename_i hs
        exfalso
        unfold Kx.sharePoint at hs
        split at hs
        · split at hs
          · cases hs
          · rcases bind_eq_panic hs with h2 | ⟨a, h2, hs⟩
            · unfold publicKeyFrom at h2
              split at h2 <;> cases h2
            · cases hs
        · cases hs
    · exfalso
      obtain ⟨h1', e1⟩ := liftKx_ok h1
      obtain ⟨fk', s, p0, p1, a1, a2, a3, a4⟩ := storeShares_ok (Prod.ext rfl h1')
      have i1 : CoreInv D cfg n ops c1 := i0.congr (by rw [e1]) (by rw [e1]) (by rw [e1])
      have hs : s = slotsAt D.add n := by
        have : c.ke.state = .followerKey fk' s := a1
        rw [hk] at this
        cases this
        rfl
      have k1 : c1.ke.state = .computed (slotsAt D.add n) p0 p1 := by
        rw [e1]
        exact (congrArg Kx.state a4).trans (by rw [hs])
      rcases bind_eq_panic hx with h2 | ⟨c2, h2, hx⟩
      · unfold Core.peerAssign at h2
        split at h2
        · simp only at h2
          split at h2
          · split at h2 <;> cases h2
          · cases h2
        · cases h2
      · obtain ⟨ops2, q2, i2, g2, e2, -⟩ := Core.peerAssign_ok i1 k1 h2
        have k2 : c2.ke.state = .computed (slotsAt D.add n) p0 p1 := by rw [e2]; exact k1
        rcases bind_eq_panic hx with h3 | ⟨c3, h3, hx⟩
        · have h3 := liftKx_panic h3
          unfold Kx.assign at h3
          split at h3
          · split at h3
            · split at h3 <;> cases h3
            · cases h3
          · cases h3
        · obtain ⟨ops3, q3, i3, -⟩ := Core.assign_ok i2 k2 h3
          rcases bind_eq_panic hx with h4 | ⟨c4, h4, hx⟩
          · exact Core_flushPrf_total i3 (sizes_append (sizes_append hz (sizes_quiet q2)) (sizes_quiet q3)) h4
          · rcases bind_eq_panic hx with h5 | ⟨c5, h5, hx⟩
            · have h5 := liftKx_panic h5
              unfold Kx.finalize at h5
              split at h5
              · split at h5
                · cases h5
                · split at h5 <;> cases h5
              · cases h5
            · unfold Core.setup at hx
              split at hx <;> cases hx


/-- Setting the server random panics only if there is no client random. -/
theorem setServerRandom_panic {D : Deps} {cfg : Limits} {n : Nat} {ops : List PrfOp} {c : Core} (h : CoreInv D cfg n ops c)
    {random : Vector Byte 32} (hx : c.setServerRandom random = .panic) : clientRandoms ops = [] := by
  obtain ⟨C, g, hC, -, hi, hl, -⟩ := prfRun_inv h.prfRun
  unfold Core.setServerRandom at hx
  rcases bind_eq_panic hx with hx | ⟨_, _, hx⟩
  · have hx := liftPrf_panic hx
    rcases hi.state with hs | ⟨hs, _⟩
    · simp only at hs
      simp only [Prf.setServerRandom, hs, hl.cr] at hx
      cases hcr : clientRandoms ops with
      | nil => rfl
      | cons a l =>
        exfalso
        have hlab := hl.labels.ms
        have hcfg := hl.config
        rw [hcr] at hx
        simp only [List.head?_cons] at hx
        rw [hcfg] at hx
        cases hm : g.masterSecret with
        | none => rw [hm] at hlab; exact hlab
        | some f => rw [hm] at hx; cases hx
    · simp only at hs
      simp only [Prf.setServerRandom, hs] at hx
      cases hx
  · cases hx

theorem setCfHash_no_panic (p : Prf) (h : Bytes) : p.setCfHash h ≠ .panic := by
  unfold Prf.setCfHash
  split <;> simp

theorem setSfHash_no_panic (p : Prf) (h : Bytes) : p.setSfHash h ≠ .panic := by
  unfold Prf.setSfHash
  split <;> simp

theorem liftRl_no_panic (c : Core) (r : RecordLayer × Except RlError Unit) : liftRl c r ≠ .panic := by
  unfold liftRl
  split <;> simp

theorem clientVd_no_panic {D : Deps} {cfg : Limits} {n : Nat} {ops : List PrfOp} {c : Core} (h : CoreInv D cfg n ops c)
    (hz : Sizes ops) (hno : cfHashes ops = []) (hash : Vector Byte 32) : c.clientVd D hash ≠ .panic := by
  intro hx
  unfold Core.clientVd at hx
  rcases bind_eq_panic hx with h1 | ⟨prf, h1, hx⟩
  · exact setCfHash_no_panic _ _ (liftPrf_panic h1)
  · have h1 := liftPrf_ok h1
    have o1 : SetOnce (ops ++ [.cfHash hash.toList]) :=
      once_nil h.once (by simp) (by simp) (by simp) (fun _ _ => hno) (by simp) ⟨rfl, rfl, rfl, rfl, rfl⟩
    obtain ⟨i1, g1⟩ := h.extend (c' := { c with prf := prf }) (ops' := [.cfHash hash.toList]) rfl
      (by simp only [runOps, PrfOp.step, h1, Outcome.bind_ok])
      o1 (by simp)
    rcases bind_eq_panic hx with h2 | ⟨c2, h2, hx⟩
    · exact Core_flushPrf_total i1 (sizes_append hz (sizes_one (by simp) quiet_nil)) h2
    · rcases bind_eq_panic hx with h3 | ⟨v, h3, hx⟩
      · exact recv_no_panic _ _ h3
      · cases hx

theorem serverVd_no_panic {D : Deps} {cfg : Limits} {n : Nat} {ops : List PrfOp} {c : Core} (h : CoreInv D cfg n ops c)
    (hz : Sizes ops) (hno : sfHashes ops = []) (hash : Vector Byte 32) : c.serverVd D hash ≠ .panic := by
  intro hx
  unfold Core.serverVd at hx
  rcases bind_eq_panic hx with h1 | ⟨prf, h1, hx⟩
  · exact setSfHash_no_panic _ _ (liftPrf_panic h1)
  · have h1 := liftPrf_ok h1
    have o1 : SetOnce (ops ++ [.sfHash hash.toList]) :=
      once_nil h.once (by simp) (by simp) (by simp) (by simp) (fun _ _ => hno) ⟨rfl, rfl, rfl, rfl, rfl⟩
    obtain ⟨i1, g1⟩ := h.extend (c' := { c with prf := prf }) (ops' := [.sfHash hash.toList]) rfl
      (by simp only [runOps, PrfOp.step, h1, Outcome.bind_ok])
      o1 (by simp)
    rcases bind_eq_panic hx with h2 | ⟨c2, h2, hx⟩
    · exact Core_flushPrf_total i1 (sizes_append hz (sizes_one (by simp) quiet_nil)) h2
    · rcases bind_eq_panic hx with h3 | ⟨v, h3, hx⟩
      · exact recv_no_panic _ _ h3
      · cases hx

theorem flush_no_panic (D : Deps) (c : Core) (w : World) (d : Bool) : c.flush D w d ≠ .panic := by
  unfold Core.flush
  split
  · split
    · simp
    · exact liftRl_no_panic _ _
  · generalize (if d = true then c.rl.decryptBuffer.length else firstAppData c.rl.decryptBuffer) = pos
    simp only
    generalize (c.rl.encryptBuffer.isEmpty && (c.rl.decryptBuffer.take pos).isEmpty) = b
    cases b <;> simp

/-- A step panics only on a server hello. -/
theorem step_panic {D : Deps} {cfg : Limits} {n : Nat} {hist : List (Msg × World)} {ops : List PrfOp} {f : Follower}
    (h : FInv D cfg n hist ops f) (m : Msg) (w : World) (hx : f.step D w m = .panic) :
    ∃ hello, m = .serverHello hello ∧
      ((∀ cr, .setClientRandom cr ∉ hist.map (·.1)) ∨ w.share0 = .panic ∨ w.share1 = .panic) := by
  have hst := h.stage
  cases m with
  | closeConnection => cases hx
  | startTraffic => cases hx
  | setClientRandom r =>
    simp only [Follower.step] at hx
    split at hx <;> cases hx
  | encrypt t v l p =>
    simp only [Follower.step] at hx
    rcases bind_eq_panic hx with hx | ⟨_, _, hx⟩
    · exact absurd hx (liftRl_no_panic _ _)
    · cases hx
  | decrypt t v nc ct g =>
    simp only [Follower.step] at hx
    rcases bind_eq_panic hx with hx | ⟨_, _, hx⟩
    · exact absurd hx (liftRl_no_panic _ _)
    · cases hx
  | flush d =>
    simp only [Follower.step] at hx
    rcases bind_eq_panic hx with hx | ⟨_, _, hx⟩
    · exact absurd hx (flush_no_panic _ _ _ _)
    · cases hx
  | clientFinishedVd hash =>
    simp only [Follower.step] at hx
    split at hx
    · cases hx
    · rename_i hn
      have hno : cfHashes ops = [] := by
        cases hst with
        | init _ _ _ _ hf => exact hf.1
        | random _ _ _ _ _ hf => exact hf.1
        | hello _ _ _ _ _ _ _ _ cf _ _ _ _ _ hf =>
          cases cf with
          | none => exact hf.1 rfl
          | some _ => exact absurd rfl hn
      rcases bind_eq_panic hx with hx | ⟨_, _, hx⟩
      · exact absurd hx (clientVd_no_panic h.core h.sizes hno hash)
      · cases hx
  | serverFinishedVd hash =>
    simp only [Follower.step] at hx
    split at hx
    · cases hx
    · rename_i hn
      have hno : sfHashes ops = [] := by
        cases hst with
        | init _ _ _ _ hf => exact hf.2
        | random _ _ _ _ _ hf => exact hf.2
        | hello _ _ _ _ _ _ _ _ _ sf _ _ _ _ hf =>
          cases sf with
          | none => exact hf.2 rfl
          | some _ => exact absurd rfl hn
      rcases bind_eq_panic hx with hx | ⟨_, _, hx⟩
      · exact absurd hx (serverVd_no_panic h.core h.sizes hno hash)
      · cases hx
  | serverHello hello =>
    refine ⟨hello, rfl, ?_⟩
    simp only [Follower.step] at hx
    split at hx
    · cases hx
    rename_i hn
    split at hx
    · cases hx
    rcases bind_eq_panic hx with hx | ⟨c1, h1, hx⟩
    · left
      have hcr := setServerRandom_panic h.core hx
      have hnone : f.clientRandom = none := by
        have := h.crs
        rw [hcr] at this
        cases hc : f.clientRandom with
        | none => rfl
        | some v => rw [hc] at this; cases this
      cases hst with
      | init _ _ _ hs _ =>
        intro cr hm
        have : (.setClientRandom cr : Msg) ∈ handshakes hist := List.mem_filter.2 ⟨hm, rfl⟩
        rw [hs] at this
        cases this
      | random => cases hnone
      | hello => cases hnone
    · split at hx
      · cases hx
      · rcases bind_eq_panic hx with hx | ⟨_, _, hx⟩
        · right
          have hsr : serverRandoms ops = [] := by
            rw [h.srs]
            cases hh : f.hello with
            | none => rfl
            | some v => rw [hh] at hn; exact absurd rfl hn
          obtain ⟨i1, e1⟩ := Core.setServerRandom_ok h.core hsr h1
          have hk : ∃ fk, f.core.ke.state = .followerKey fk (slotsAt D.add n) := by
            cases hst with
            | init _ hk => exact hk
            | random _ _ hk => exact hk
            | hello => exact absurd rfl hn
          obtain ⟨fk, hk⟩ := hk
          exact exchange_panic i1 (sizes_append h.sizes (sizes_one (by simp) quiet_nil)) (fk := fk) (by rw [e1]; exact hk) hx
        · cases hx

/-- A record that was accepted for encryption is application data or its plaintext is known. -/
theorem callSendings_known (k : SessionFns) (peer : Nat → Bytes) (calls : List RlCall) (r : RecordLayer) (n : Nat)
    (h : ∀ x ∈ r.history k peer calls, Fine x.2) (s : Sending) (hs : s ∈ callSendings n calls) :
    s.typ = .applicationData ∨ s.plaintext ≠ none := by
  induction calls generalizing r n with
  | nil => cases hs
  | cons c cs ih =>
    have e : r.history k peer (c :: cs) = (c, (r.step k peer c).2) :: (r.step k peer c).1.history k peer cs := rfl
    rw [e] at h
    have h1 := h _ List.mem_cons_self
    have h2 := fun n => ih (r.step k peer c).1 n (fun x hx => h x (List.mem_cons_of_mem _ hx))
    cases c with
    | pushEncrypt t v l p =>
      rcases List.mem_cons.1 hs with rfl | hs
      · simp only
        have h3 : RlResult.ofExcept (r.pushEncrypt t v l p).2 = .done := ofExcept_fine h1
        unfold RecordLayer.pushEncrypt at h3
        split at h3
        · cases h3
        · split at h3
          · cases h3
          · unfold EncryptOp.new at h3
            simp only at h3
            split at h3
            · rename_i e he
              cases h3
            · rename_i op he
              split at he
              · cases he
              · split at he
                · cases he
                · rename_i hn
                  by_cases ht : t = .applicationData
                  · exact Or.inl ht
                  · refine Or.inr fun hp => hn ⟨?_, hp⟩
                    unfold modeOf
                    rw [if_neg ht]
      · exact h2 _ hs
    | _ => exact h2 _ hs

theorem decryptLocal_no_panic (f : AeadFn) (ops : List DecryptOp) (a : Aead) :
    (decryptLocal f .follower a ops).2 ≠ .panic := by
  induction ops generalizing a with
  | nil => simp [decryptLocal]
  | cons op ops ih =>
    unfold decryptLocal decryptOpLocal
    cases op.mode with
    | priv =>
      have := ih a
      rw [if_neg (by simp)]
      simp only
      generalize decryptLocal f .follower a ops = x at *
      rcases x with ⟨a2, _ | _ | _⟩ <;> simp at this ⊢
    | pub =>
      simp only
      generalize a.takeKeystream op.nonce op.ciphertext.length = y
      rcases y with ⟨a1, _ | _⟩
      · simp
      · simp only
        have := ih a1
        generalize decryptLocal f .follower a1 ops = x at *
        rcases x with ⟨a2, _ | _ | _⟩ <;> simp at this ⊢

theorem commit_no_panic {D : Deps} {cfg : Limits} {calls : List RlCall} {c : Core} (h : RlInv D cfg .follower [] calls c)
    (hl : calls.length ≤ 2 ^ 64) (w : World) : c.commit D w ≠ .panic := by
  intro hx
  unfold Core.commit at hx
  split at hx
  · split at hx
    · cases hx
    · rename_i k hk
      split at hx
      · cases hx
      · cases hx
      · rename_i rl hc
        obtain ⟨h1, -⟩ := h k (fun k' _ hf => (by rw [hk] at hf; cases hf; rfl))
        have hro : c.rl.role = .follower := by
          rw [← h1]
          exact (run_ok (k := k) (peer := D.peerData) calls (online_wf .follower [] cfg.maxSentRecords cfg.maxRecvRecordsOnline
            cfg.maxSent cfg.maxRecvOnline cfg.maxRecv) (by omega) (by omega)).role
        unfold RecordLayer.commit at hc
        split at hc
        · simp only at hc
          split at hc
          · simp at hc
          · split at hc
            · simp at hc
            · split at hc
              · simp at hc
              · split at hc
                · simp at hc
                · rename_i d1 hd
                  rw [hro] at hd
                  exact decryptLocal_no_panic _ _ _ (by rw [hd])
                · simp at hc
        · simp at hc
  · cases hx

theorem orHs_no_panic {α : Type} (o : Option α) : orHs o ≠ .panic := by cases o <;> simp [orHs]

theorem buildTranscript_panic {D : Deps} {b : TtBuilder} (h : buildTranscript D b = .panic) : b.build D.tt = .panic := by
  unfold buildTranscript at h
  split at h
  · cases h
  · cases h
  · assumption

theorem checkCloseNotify_no_panic (l : List Record) : checkCloseNotify l ≠ .panic := by
  unfold checkCloseNotify
  repeat' split
  all_goals simp

/-- The first record of a good direction has verify data, if its plaintext is known when it is not application data. -/
theorem vd_known {l : List Record} (hl : RecordsOk l) (hk : ∀ r ∈ l, r.typ = .applicationData ∨ r.plaintext ≠ none) :
    expectVd (l.head?.map fun r => r.plaintext.bind TlsTranscript.dropHeader) ≠ .panic := by
  obtain ⟨f, rest, rfl, ht, -, hp⟩ := hl.first
  rcases hk f List.mem_cons_self with h | h
  · rw [ht] at h; cases h
  · cases hf : f.plaintext with
    | none => exact absurd hf h
    | some p =>
      obtain ⟨vd, more, hvd, rfl⟩ := hp p hf
      have hlen : 4 ≤ (hsBytes (0x14, vd) ++ more).length := by
        simp [hsBytes]
      simp only [List.head?_cons, Option.map_some, hf, Option.bind_some, TlsTranscript.dropHeader, if_pos hlen, expectVd]
      simp

/-- The end of a connection panics only if there is no record in some direction. -/
theorem close_panic {D : Deps} {cfg : Limits} {n : Nat} {hist : List (Msg × World)} {ops : List PrfOp} {f : Follower}
    (h : FInv D cfg n hist ops f) (hl : hist.length ≤ 2 ^ 64) (w : World) (hx : f.close D w = .panic) :
    sendings 0 (hist.map (·.1)) = [] ∨ receivings 0 (hist.map (·.1)) = [] := by
  have hcalls : (hist.filterMap rlCall).length ≤ 2 ^ 64 := (List.length_filterMap_le rlCall hist).trans hl
  unfold Follower.close at hx
  rcases bind_eq_panic hx with h1 | ⟨⟨c', sent, recv⟩, h1, hx⟩
  · exact absurd h1 (commit_no_panic h.rl hcalls w)
  obtain ⟨k, k1, k2, k3, k4, k5⟩ := h.rl.commit hcalls h1
  rw [accepted_fine _ _ _ _ _ k3, callSendings_msgs] at k4
  rw [incoming_fine _ _ _ _ _ k3, callReceivings_msgs] at k5
  rcases bind_eq_panic hx with h2 | ⟨hello, h2, hx⟩
  · exact absurd h2 (orHs_no_panic _)
  rcases bind_eq_panic hx with h3 | ⟨cr, h3, hx⟩
  · exact absurd h3 (orHs_no_panic _)
  rcases bind_eq_panic hx with h4 | ⟨cf', h4, hx⟩
  · exact absurd h4 (orHs_no_panic _)
  rcases bind_eq_panic hx with h5 | ⟨sf', h5, hx⟩
  · exact absurd h5 (orHs_no_panic _)
  have hg : hello.key.group = .secp256r1 := by
    have h2 := orHs_ok h2
    have hst := h.stage
    cases hst with
    | init => cases h2
    | random => cases h2
    | hello _ _ _ _ _ _ _ _ _ _ hh => cases h2; exact hh.group
  rcases bind_eq_panic hx with h6 | ⟨key, h6, hx⟩
  · unfold ephemKey at h6
    rw [if_pos hg] at h6
    cases h6
  rcases bind_eq_panic hx with h7 | ⟨t, h7, hx⟩
  · rcases C42_build_panics_only_on_empty _ _ (buildTranscript_panic h7) with e | e
    · left
      have e : sent = [] := Option.some.inj e
      rw [k4] at e
      exact List.map_eq_nil_iff.1 e
    · right
      have e : recv = [] := Option.some.inj e
      rw [k5] at e
      exact List.map_eq_nil_iff.1 e
  · exfalso
    obtain ⟨b1, b2, -, -, -, -, -, b8, b9, -⟩ := (C42_given_iff D.tt _ rfl rfl sent recv rfl rfl t).1 (buildTranscript_ok h7)
    have s1 : ∀ r ∈ sent, r.typ = .applicationData ∨ r.plaintext ≠ none := by
      intro r hr
      rw [k4, ← callSendings_msgs] at hr
      obtain ⟨s, hs, rfl⟩ := List.mem_map.1 hr
      exact callSendings_known k D.peerData _ _ _ k3 s hs
    have s2 : ∀ r ∈ recv, r.typ = .applicationData ∨ r.plaintext ≠ none := by
      intro r hr
      rw [k5] at hr
      obtain ⟨s, hs, rfl⟩ := List.mem_map.1 hr
      by_cases ht : s.typ = .applicationData
      · exact Or.inl ht
      · refine Or.inr ?_
        simp [Receiving.inTranscript, Receiving.plaintext, ht]
    rcases bind_eq_panic hx with hx | ⟨_, _, hx⟩
    · unfold Mpc.verifyTranscript at hx
      rcases bind_eq_panic hx with hx | ⟨v1, _, hx⟩
      · refine vd_known (l := t.sent) (b8 ▸ b1) (b8 ▸ s1) hx
      · split at hx
        · cases hx
        · rcases bind_eq_panic hx with hx | ⟨v2, _, hx⟩
          · refine vd_known (l := t.recv) (b9 ▸ b2) (b9 ▸ s2) hx
          · split at hx
            · cases hx
            · rcases bind_eq_panic hx with hx | ⟨_, _, hx⟩
              · exact checkCloseNotify_no_panic _ hx
              · exact checkCloseNotify_no_panic _ hx
    · cases hx

theorem followerRun_panic {D : Deps} {cfg : Limits} {n : Nat} (input : List (Msg × World)) {hist : List (Msg × World)}
    {ops : List PrfOp} {f : Follower} (h : FInv D cfg n hist ops f) (hx : f.run D input = .panic) :
    ∃ pre m w rest ops' f', input = pre ++ (m, w) :: rest ∧ (∀ x ∈ pre, x.1 ≠ .closeConnection) ∧
      FInv D cfg n (hist ++ pre) ops' f' ∧ ((m = .closeConnection ∧ f'.close D w = .panic) ∨ f'.step D w m = .panic) := by
  induction input generalizing hist ops f with
  | nil => cases hx
  | cons x xs ih =>
    obtain ⟨m, w⟩ := x
    by_cases hm : m = .closeConnection
    · subst hm
      exact ⟨[], _, w, xs, ops, f, rfl, by simp, by simpa using h, Or.inl ⟨rfl, hx⟩⟩
    · have hx' : (f.step D w m >>= fun f => f.run D xs) = .panic := by
        cases m <;> first | exact hx | exact absurd rfl hm
      rcases bind_eq_panic hx' with h1 | ⟨f1, h1, h2⟩
      · exact ⟨[], _, w, xs, ops, f, rfl, by simp, by simpa using h, Or.inr h1⟩
      obtain ⟨ops1, i1⟩ := h.step m w hm h1
      obtain ⟨pre, m', wc, rest, ops', f', e1, e2, e3, e4⟩ := ih i1 h2
      refine ⟨(m, w) :: pre, m', wc, rest, ops', f', by rw [e1]; rfl, ?_, by simpa using e3, e4⟩
      intro y hy
      rcases List.mem_cons.1 hy with rfl | hy
      · exact hm
      · exact e2 y hy

/-- C43: a follower panics only on a server hello that comes before the client random (or if the share conversion panics), and on
`CloseConnection` when no record was sent or none was received.  Whatever else the leader sends gives an error or is accepted. -/
theorem C43_panics (D : Deps) (cfg : Limits) (sk : Nat) (vm : Vm) (hvm : vm.Fresh) (peerKey : Option Point)
    (input : List (Msg × World)) (hl : input.length ≤ 2 ^ 64) (h : runFollower D cfg sk vm peerKey input = .panic) :
    ∃ pre m w rest, input = pre ++ (m, w) :: rest ∧ (∀ x ∈ pre, x.1 ≠ .closeConnection) ∧
      ((∃ hello, m = .serverHello hello ∧
          ((∀ cr, .setClientRandom cr ∉ pre.map (·.1)) ∨ w.share0 = .panic ∨ w.share1 = .panic)) ∨
        (m = .closeConnection ∧ (sendings 0 (pre.map (·.1)) = [] ∨ receivings 0 (pre.map (·.1)) = []))) := by
  unfold runFollower at h
  rcases bind_eq_panic h with h0 | ⟨f0, h0, h⟩
  · exfalso
    obtain ⟨c, hc, hinv, hr, hrl, hk, hro⟩ := Core.alloc_ok (D := D) (cfg := cfg) (role := .follower) (sk := sk) (otp := []) hvm
    unfold Follower.start at h0
    rw [hc, Outcome.bind_ok] at h0
    rcases bind_eq_panic h0 with h1 | ⟨_, _, h0⟩
    · unfold Core.preprocess Kx.setup at h1
      rw [hk] at h1
      cases peerKey <;> cases h1
    · cases h0
  · obtain ⟨pre, m, w, rest, ops, f, e1, e2, hf, hx⟩ := followerRun_panic input (start_ok hvm h0) h
    rw [List.nil_append] at hf
    refine ⟨pre, m, w, rest, e1, e2, ?_⟩
    have hpre : pre.length ≤ 2 ^ 64 := by
      have : pre.length ≤ input.length := by rw [e1]; simp
      omega
    rcases hx with ⟨rfl, hx⟩ | hx
    · exact Or.inr ⟨rfl, close_panic hf hpre w hx⟩
    · exact Or.inl (step_panic hf m w hx)


theorem alloc_prf_setup {D : Deps} {cfg : Limits} {role : Role} {sk : Nat} {otp : Bytes} {vm : Vm} {c : Core}
    (h : Core.alloc D cfg role sk otp vm = .ok c) : ∃ g, c.prf.state = .setup g := by
  unfold Core.alloc at h
  simp only at h
  split at h
  · split at h
    · rename_i ha
      cases h
      simp only [Prf.allocPms, Prf.new, Prf.allocPostMs] at ha
      obtain ⟨r, -, ha⟩ := Outcome.bind_eq_ok.mp ha
      obtain ⟨keys, -, ha⟩ := Outcome.bind_eq_ok.mp ha
      obtain ⟨v1, -, ha⟩ := Outcome.bind_eq_ok.mp ha
      obtain ⟨v2, -, ha⟩ := Outcome.bind_eq_ok.mp ha
      cases ha
      exact ⟨_, rfl⟩
    · cases h
    · cases h
  · cases h
  · cases h

/-- C43, disagreement: a server hello before the client random makes the follower panic, whatever it says. -/
theorem C43_hello_first_panics (D : Deps) (cfg : Limits) (sk : Nat) (vm : Vm) (hvm : vm.Fresh) (peerKey : Point) (hello : Hello)
    (w : World) (hn : hello.time ≤ w.now + 5) (hn' : w.now ≤ hello.time + 5) (rest : List (Msg × World)) :
    runFollower D cfg sk vm (some peerKey) ((.serverHello hello, w) :: rest) = .panic := by
  obtain ⟨c, hc, hinv, hr, hrl, hk, hro⟩ := Core.alloc_ok (D := D) (cfg := cfg) (role := .follower) (sk := sk) (otp := []) hvm
  have hp : ∃ ke, c.preprocess (some peerKey) = .ok { c with ke } := by
    unfold Core.preprocess Kx.setup
    rw [hk]
    exact ⟨_, rfl⟩
  obtain ⟨ke, hp⟩ := hp
  have hs : Follower.start D cfg sk vm (some peerKey) = .ok ⟨{ c with ke }, none, none, none, none⟩ := by
    unfold Follower.start
    rw [hc, Outcome.bind_ok, hp, Outcome.bind_ok]
  have hfar : tooFar hello.time w.now = false := by
    unfold tooFar
    split <;> simp <;> omega
  have hsr : ({ c with ke } : Core).setServerRandom hello.random = .panic := by
    unfold Core.setServerRandom
    obtain ⟨C, g, hC, -, hi, hl, -⟩ := prfRun_inv hinv.prfRun
    rcases C44_server_random_first hinv.prfRun rfl hello.random.toList with h | h
    · simp only [h]; rfl
    · exfalso
      have hcr : c.prf.clientRandom = none := by rw [hl.cr]; rfl
      obtain ⟨g, hg⟩ := alloc_prf_setup hc
      simp [Prf.setServerRandom, hg, hcr] at h
  unfold runFollower
  rw [hs, Outcome.bind_ok]
  unfold Follower.run
  simp only [Follower.step, hfar, hsr]
  rfl

/-! ## A connection -/

namespace MpcExample

/-- Toy functions: the tags and the keystream are zero. -/
def deps : Deps where
  sha := toySha
  add := plainAdd
  parseKey _ := some basePoint
  tt := ⟨fun _ => true, fun _ => [], fun _ => none⟩
  aead _ _ _ _ := ⟨⟨fun _ _ => .replicate 16 0, fun _ => .replicate 16 0⟩, ⟨fun _ _ => .replicate 16 0, fun _ => .replicate 16 0⟩⟩
  peerData _ := [0, 0, 0]
  sigAlg _ _ _ _ := some .ecdsaP256Sha256
  rounds := 11

def limits : Limits := ⟨.normal, 10, 10, 100, 100, 100⟩

/-- The shares of the follower are 4 and 2, those of the leader 3 and 5. -/
def world : World := ⟨1000, .ok 4, .ok 2, some (fpBytes 3, fpBytes 5), true, true⟩

def random (b : Byte) : Vector Byte 32 := .replicate 32 b

def hello (time : Nat) : Hello := ⟨time, random 2, ⟨.secp256r1, [4, 1, 2]⟩⟩

def master : Bytes := toySha.masterSecret (fpBytes 7) (random 1).toList (random 2).toList

def cf : Bytes := hsBytes (0x14, toySha.clientVerifyData master (random 3).toList)

def sf : Bytes := hsBytes (0x14, toySha.serverVerifyData master (random 4).toList)

/-- The messages of a connection with a request of three bytes, an answer of two and a `close_notify`. -/
def messages (time : Nat) : List Msg := [
  .setClientRandom (random 1), .serverHello (hello time), .clientFinishedVd (random 3),
  .encrypt .handshake .tls12 16 (some cf), .flush true,
  .serverFinishedVd (random 4), .decrypt .handshake .tls12 (.replicate 8 0) sf (.replicate 16 0), .flush true, .startTraffic,
  .encrypt .applicationData .tls12 3 none, .flush true,
  .decrypt .applicationData .tls12 (.replicate 8 1) [50, 51] (.replicate 16 0), .flush false,
  .encrypt .alert .tls12 2 (some [1, 0]), .flush false]

def follow (input : List Msg) : Outcome Err TlsTranscript :=
  runFollower deps limits 2 emptyVm (some basePoint) ((input ++ [Msg.closeConnection]).map (·, world))

example : (match follow (messages 1000) with
    | .ok t => decide (t.time = 1000 ∧ t.sent.map (·.typ) = [.handshake, .applicationData, .alert] ∧
        t.recv.map (·.typ) = [.handshake, .applicationData] ∧
        t.sent.map (·.plaintext) = [some cf, none, some [1, 0]] ∧ t.recv.map (·.plaintext) = [some sf, none])
    | _ => false) = true := by decide +kernel

/-- The ways to fail: a clock that is six seconds off, a missing or repeated random, another group, another Finished message, another
end of the connection. -/
example : follow (messages 995) ≠ .err .hs ∧ follow (messages 1005) ≠ .err .hs ∧ follow (messages 994) = .err .hs ∧
    follow (messages 1006) = .err .hs ∧
    follow ((messages 1000).take 14) = .err .recordLayer ∧
    follow ((messages 1000).take 9) = .err .peer ∧
    follow ((messages 1000).take 3) = .err .hs ∧
    follow (.setClientRandom (random 1) :: messages 1000) = .err .hs ∧
    follow (messages 1000 ++ [.serverHello (hello 1000)]) = .err .hs ∧
    follow (messages 1000 ++ [.clientFinishedVd (random 3)]) = .err .hs ∧
    follow (messages 1000 ++ [.serverFinishedVd (random 3)]) = .err .hs ∧
    follow ((messages 1000).set 2 (.clientFinishedVd (random 4))) = .err .peer ∧
    follow ((messages 1000).set 5 (.serverFinishedVd (random 3))) = .err .peer ∧
    follow ((messages 1000).set 13 (.encrypt .alert .tls12 2 (some [1, 1]))) = .err .peer ∧
    follow ((messages 1000).set 1 (.serverHello ⟨1000, random 2, ⟨.other 29, [4, 1, 2]⟩⟩)) = .err .hs := by decide +kernel

/-- The panics. -/
example : follow ((messages 1000).drop 1) = .panic ∧
    follow ((messages 1000).eraseIdx 3 |>.filter fun m => match m with | .encrypt .. => false | _ => true) = .panic ∧
    follow ((messages 1000).filter fun m => match m with | .decrypt .. => false | _ => true) = .panic := by decide +kernel

end MpcExample

end Tlsn
