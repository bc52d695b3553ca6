import Verif.RecordLayer.Histories

/-! # C29: order, loss and release of records -/

namespace Tlsn

section
variable (k : SessionFns) (peer : Nat → Bytes) (role : Role) (otp : Bytes)
  (sentRecords recvRecords sentLen recvLenOnline recvLen : Nat)

/-- **C29** In every history, with whatever failures, the records handed out for sending are among the
accepted records, each encrypted under its own sequence number, in the order in which they were accepted,
none twice; and the same holds for the decrypted records handed out. -/
theorem C29_order (calls : List RlCall) (hc : calls.length ≤ 2 ^ 64) :
    let r := RecordLayer.online role otp sentRecords recvRecords sentLen recvLenOnline recvLen
    let h := r.history k peer calls
    (released h).Sublist ((accepted 0 h).map (·.onWire k.client peer role)) ∧
    (delivered h).Sublist ((incoming 0 h).map (·.plain k.server role)) := by
  intro r h
  have hr := run_ok (k := k) (peer := peer) calls (online_wf role otp sentRecords recvRecords sentLen
    recvLenOnline recvLen) (by omega) (by omega)
  have e1 : r.outE k peer = [] := rfl
  have e2 : r.outD k = [] := rfl
  have a := hr.sub
  have b := hr.subD
  rw [show (RecordLayer.online role otp sentRecords recvRecords sentLen recvLenOnline recvLen).outE k peer = []
    from rfl, List.nil_append] at a
  rw [show (RecordLayer.online role otp sentRecords recvRecords sentLen recvLenOnline recvLen).outD k = []
    from rfl, List.nil_append] at b
  exact ⟨(List.sublist_append_left _ _).trans a, (List.sublist_append_left _ _).trans b⟩

/-- **C29** If no flush or commit failed and no push had a wrong plaintext, then no record is skipped:
what was handed out is an initial segment of what was accepted. -/
theorem C29_no_gap (calls : List RlCall) (hc : calls.length ≤ 2 ^ 64) :
    let r := RecordLayer.online role otp sentRecords recvRecords sentLen recvLenOnline recvLen
    let h := r.history k peer calls
    (∀ x ∈ h, lossless x = true) →
    released h <+: (accepted 0 h).map (·.onWire k.client peer role) ∧
    delivered h <+: (incoming 0 h).map (·.plain k.server role) := by
  intro r h hl
  have hr := run_ok (k := k) (peer := peer) calls (online_wf role otp sentRecords recvRecords sentLen
    recvLenOnline recvLen) (by omega) (by omega)
  have a := hr.eq hl
  have b := hr.eqD hl
  exact ⟨⟨_, a⟩, ⟨_, b⟩⟩

/-- **C29** `commit` returns the transcript of the accepted records: always records in order and none
twice, and all of them if nothing failed before. -/
theorem C29_commit (calls : List RlCall) (hc : calls.length ≤ 2 ^ 64) (env : FlushEnv) (r' : RecordLayer)
    (sent recv : List Record) :
    let r := RecordLayer.online role otp sentRecords recvRecords sentLen recvLenOnline recvLen
    let h := r.history k peer calls
    (r.run k peer calls).1.commit k env = (r', .ok (sent, recv)) →
    sent.Sublist ((accepted 0 h).map (·.inTranscript k.client peer role)) ∧
    recv.Sublist ((incoming 0 h).map (·.inTranscript k.server role)) ∧
    ((∀ x ∈ h, lossless x = true) →
      sent = (accepted 0 h).map (·.inTranscript k.client peer role) ∧
      recv = (incoming 0 h).map (·.inTranscript k.server role)) := by
  intro r h hcm
  have hr := run_ok (k := k) (peer := peer) calls (online_wf role otp sentRecords recvRecords sentLen
    recvLenOnline recvLen) (by omega) (by omega)
  obtain ⟨n', m', hw, -, -⟩ := hr.wf
  obtain ⟨o, c0, d1, hs, hb, rfl, -, -⟩ := commit_ok hw hcm
  obtain ⟨o0, s0, c0', hs0, t1, t2, t3⟩ := hr.trans _ _ _ hs
  have hpend : (r.run k peer calls).1.pendS k peer = [] := by
    have : (r.run k peer calls).1.encryptBuffer = [] := hb
    simp [RecordLayer.pendS, this]
  simp only [RecordLayer.online, RlState.online.injEq] at hs0
  obtain ⟨-, rfl, rfl⟩ := hs0
  have e1 : r.pendS k peer = [] := rfl
  have e2 : r.pendR k = [] := rfl
  change (sent ++ (r.run k peer calls).1.pendS k peer).Sublist ([] ++ r.pendS k peer ++ _) at t1
  change (c0 ++ (r.run k peer calls).1.pendR k).Sublist ([] ++ r.pendR k ++ _) at t2
  rw [hpend, e1, List.append_nil] at t1
  rw [e2] at t2
  refine ⟨t1, t2, fun hl => ?_⟩
  have t4 := t3 hl
  change sent ++ (r.run k peer calls).1.pendS k peer = [] ++ r.pendS k peer ++ _ ∧
    c0 ++ (r.run k peer calls).1.pendR k = [] ++ r.pendR k ++ _ at t4
  rw [hpend, e1, e2, List.append_nil] at t4
  exact t4

end

theorem next_drain {k : SessionFns} {peer : Nat → Bytes} (N : Nat) {r : RecordLayer} (hs : r.started = true)
    (hN : r.encryptedBuffer.length ≤ N) :
    (r.run k peer (List.replicate N .nextEncrypted)).1 = { r with encryptedBuffer := [] } ∧
    released (r.history k peer (List.replicate N .nextEncrypted)) = r.encryptedBuffer := by
  induction N generalizing r with
  | zero =>
    have : r.encryptedBuffer = [] := List.length_eq_zero_iff.1 (by omega)
    simp [RecordLayer.run, RecordLayer.history, released, ← this]
  | succ N ih =>
    rw [List.replicate_succ, history_cons, released_cons]
    cases he : r.encryptedBuffer with
    | nil =>
      have hst : r.step k peer .nextEncrypted = (r, .encrypted none) := by
        simp [RecordLayer.step, RecordLayer.nextEncrypted, he]
      have h1 := ih hs (by rw [he]; simp)
      simp only [RecordLayer.run, hst]
      rw [h1.1, h1.2, he]
      exact ⟨rfl, rfl⟩
    | cons x rest =>
      have hst : r.step k peer .nextEncrypted = ({ r with encryptedBuffer := rest }, .encrypted (some x)) := by
        simp [RecordLayer.step, RecordLayer.nextEncrypted, he, hs]
      have h1 := ih (r := { r with encryptedBuffer := rest }) hs
        (by simp only; rw [he] at hN; simp only [List.length_cons] at hN; omega)
      simp only [RecordLayer.run, hst]
      rw [h1.1, h1.2]
      exact ⟨rfl, rfl⟩

theorem next_drainD {k : SessionFns} {peer : Nat → Bytes} (N : Nat) {r : RecordLayer} (hs : r.started = true)
    (hN : r.decryptedBuffer.length ≤ N) :
    delivered (r.history k peer (List.replicate N .nextDecrypted)) = r.decryptedBuffer := by
  induction N generalizing r with
  | zero =>
    have : r.decryptedBuffer = [] := List.length_eq_zero_iff.1 (by omega)
    simp [RecordLayer.history, delivered, this]
  | succ N ih =>
    rw [List.replicate_succ, history_cons, delivered_cons]
    cases he : r.decryptedBuffer with
    | nil =>
      have hst : r.step k peer .nextDecrypted = (r, .decrypted none) := by
        simp [RecordLayer.step, RecordLayer.nextDecrypted, he]
      have h1 := ih hs (by rw [he]; simp)
      simp only [hst]
      rw [h1, he]
      rfl
    | cons x rest =>
      have hst : r.step k peer .nextDecrypted = ({ r with decryptedBuffer := rest }, .decrypted (some x)) := by
        simp [RecordLayer.step, RecordLayer.nextDecrypted, he, hs]
      have h1 := ih (r := { r with decryptedBuffer := rest }) hs
        (by simp only; rw [he] at hN; simp only [List.length_cons] at hN; omega)
      simp only [hst]
      rw [h1]
      rfl

/-- **C29** Nothing is left behind: when nothing has failed, a successful flush that also decrypts,
followed by `start_traffic` and enough calls of `next_encrypted` and `next_decrypted`, has handed out
every accepted record. -/
theorem C29_drained (k : SessionFns) (peer : Nat → Bytes) (role : Role) (otp : Bytes)
    (sentRecords recvRecords sentLen recvLenOnline recvLen : Nat) (calls : List RlCall)
    (hc : calls.length ≤ 2 ^ 64) (env : FlushEnv) (N M : Nat) :
    let r := RecordLayer.online role otp sentRecords recvRecords sentLen recvLenOnline recvLen
    let h := r.history k peer calls
    let r1 := (r.run k peer calls).1
    let r2 := (r1.flush k peer env true).1
    let r3 := (r2.step k peer .startTraffic).1
    let h4 := r3.history k peer (List.replicate N .nextEncrypted)
    let r4 := (r3.run k peer (List.replicate N .nextEncrypted)).1
    let h5 := r4.history k peer (List.replicate M .nextDecrypted)
    (∀ x ∈ h, lossless x = true) → (r1.flush k peer env true).2 = .ok () →
    (accepted 0 h).length ≤ N → (incoming 0 h).length ≤ M →
    released h ++ released h4 = (accepted 0 h).map (·.onWire k.client peer role) ∧
    delivered h ++ delivered h5 = (incoming 0 h).map (·.plain k.server role) := by
  intro r h r1 r2 r3 h4 r4 h5 hl hf hN hM
  have hr := run_ok (k := k) (peer := peer) calls (online_wf role otp sentRecords recvRecords sentLen
    recvLenOnline recvLen) (by omega) (by omega)
  have a : released h ++ r1.outE k peer = (accepted 0 h).map (·.onWire k.client peer role) := hr.eq hl
  have b : delivered h ++ r1.outD k = (incoming 0 h).map (·.plain k.server role) := hr.eqD hl
  obtain ⟨n', m', hw, -, -⟩ := hr.wf
  have key : r2.encryptedBuffer = r1.outE k peer ∧ r2.decryptedBuffer = r1.outD k := by
    by_cases hst : (∀ otp s c, r1.state ≠ .online otp s c) ∨ env.locksFree = false
    · obtain ⟨e, he, hf'⟩ := flush_not_started (k := k) (peer := peer) (d := true) hst
      rw [hf'] at hf
      simp at hf
    · have hlf : env.locksFree = true := by
        cases hx : env.locksFree
        · exact absurd (.inr hx) hst
        · rfl
      have hol : ∃ otp s c, r1.state = .online otp s c := by
        cases hx : r1.state with
        | online o s c => exact ⟨o, s, c, rfl⟩
        | _ => exact absurd (.inl (by simp [hx])) hst
      obtain ⟨o, sent, recv, hs⟩ := hol
      obtain ⟨e1, d1, otp1, ro, ho, hf1⟩ := flush_online (k := k) (peer := peer) (d := true) hw hs hlf
      rcases hf1 with ⟨e, -, hf1⟩ | ⟨hf1, -⟩
      · have : (r1.flush k peer env true).2 = .error e := by
          change ((r.run k peer calls).1.flush k peer env true).2 = _
          have := congrArg Prod.snd hf1
          exact this
        rw [hf] at this; simp at this
      · have h2 : r2 = _ := congrArg Prod.fst hf1
        rw [h2]
        refine ⟨rfl, ?_⟩
        have : (r.run k peer calls).1.decryptBuffer.take ((r.run k peer calls).1.flushPos true) =
            (r.run k peer calls).1.decryptBuffer := by simp [RecordLayer.flushPos]
        change _ ++ List.map _ (List.take _ (r.run k peer calls).1.decryptBuffer) = r1.outD k
        change (r.run k peer calls).1.decryptedBuffer ++
          List.map _ (List.take ((r.run k peer calls).1.flushPos true) (r.run k peer calls).1.decryptBuffer) = _
        rw [this]
        rfl
  have ha := congrArg List.length a
  have hb := congrArg List.length b
  simp only [List.length_append, List.length_map] at ha hb
  have d1 := next_drain (k := k) (peer := peer) N (r := r3) rfl
    (by change r2.encryptedBuffer.length ≤ N; rw [key.1]; omega)
  have hr4 : r4 = { r3 with encryptedBuffer := [] } := d1.1
  have d2 := next_drainD (k := k) (peer := peer) M (r := r4) (by rw [hr4]; rfl)
    (by rw [hr4]; change r2.decryptedBuffer.length ≤ M; rw [key.2]; omega)
  refine ⟨?_, ?_⟩
  · rw [d1.2]; change released h ++ r2.encryptedBuffer = _; rw [key.1, a]
  · rw [d2, hr4]; change delivered h ++ r2.decryptedBuffer = _; rw [key.2, b]

theorem run_gate {k : SessionFns} {peer : Nat → Bytes} (calls : List RlCall) (hc : .startTraffic ∉ calls)
    {r : RecordLayer} (hs : r.started = false) :
    (∀ x ∈ released (r.history k peer calls), x.typ ≠ .applicationData) ∧
    (∀ x ∈ delivered (r.history k peer calls), x.typ ≠ .applicationData) ∧
    (r.run k peer calls).1.started = false := by
  induction calls generalizing r with
  | nil => simp [RecordLayer.history, released, delivered, RecordLayer.run, hs]
  | cons c cs ih =>
    have hcs : .startTraffic ∉ cs := fun h => hc (List.mem_cons_of_mem _ h)
    have hne : c ≠ .startTraffic := fun h => hc (by simp [h])
    have key : (r.step k peer c).1.started = false ∧
        (∀ x ∈ released [(c, (r.step k peer c).2)], x.typ ≠ .applicationData) ∧
        (∀ x ∈ delivered [(c, (r.step k peer c).2)], x.typ ≠ .applicationData) := by
      cases c with
      | startTraffic => exact absurd rfl hne
      | pushEncrypt t v l p =>
        refine ⟨?_, ?_⟩
        · simp only [RecordLayer.step, RecordLayer.pushEncrypt]
          split
          · exact hs
          · split
            · exact hs
            · split <;> exact hs
        · simp only [RecordLayer.step]
          generalize (r.pushEncrypt t v l p).2 = x
          cases x <;> simp [RlResult.ofExcept, released, delivered]
      | pushDecrypt t v nc ct tg =>
        refine ⟨?_, ?_⟩
        · simp only [RecordLayer.step, RecordLayer.pushDecrypt]
          split
          · exact hs
          · split <;> exact hs
        · simp only [RecordLayer.step]
          generalize (r.pushDecrypt t v nc ct tg).2 = x
          cases x <;> simp [RlResult.ofExcept, released, delivered]
      | flush env d =>
        refine ⟨?_, ?_⟩
        · have : (r.flush k peer env d).1.started = r.started := by
            rcases flush_frame k peer env r d with ⟨e, h⟩ | ⟨e1, d1, ro, eb, db, st, x, h, -⟩
            · rw [h]
            · rw [h]; rfl
          exact this.trans hs
        · simp only [RecordLayer.step]
          generalize (r.flush k peer env d).2 = x
          cases x <;> simp [RlResult.ofExcept, released, delivered]
      | nextEncrypted =>
        simp only [RecordLayer.step, RecordLayer.nextEncrypted]
        split
        · exact ⟨hs, by simp [released], by simp [delivered]⟩
        · rename_i x rest hx
          by_cases ht : x.typ = .applicationData
          · simp [hs, ht, released, delivered]
          · simp [hs, ht, released, delivered]
      | nextDecrypted =>
        simp only [RecordLayer.step, RecordLayer.nextDecrypted]
        split
        · exact ⟨hs, by simp [released], by simp [delivered]⟩
        · rename_i x rest hx
          by_cases ht : x.typ = .applicationData
          · simp [hs, ht, released, delivered]
          · simp [hs, ht, released, delivered]
      | commit env =>
        refine ⟨?_, ?_⟩
        · have : (r.commit k env).1.started = r.started := by
            simp only [RecordLayer.commit]
            repeat' split
            all_goals rfl
          exact this.trans hs
        · simp only [RecordLayer.step]
          generalize (r.commit k env).2 = x
          cases x <;> simp [RlResult.ofCommit, released, delivered]
    have h1 := ih hcs key.1
    rw [history_cons, released_cons, delivered_cons]
    refine ⟨?_, ?_, h1.2.2⟩
    · intro x hx
      rcases List.mem_append.1 hx with hx | hx
      · exact key.2.1 x hx
      · exact h1.1 x hx
    · intro x hx
      rcases List.mem_append.1 hx with hx | hx
      · exact key.2.2 x hx
      · exact h1.2.1 x hx

/-- **C29** Until `start_traffic` is called no application data is handed out, in either direction. -/
theorem C29_gate (k : SessionFns) (peer : Nat → Bytes) (role : Role) (otp : Bytes)
    (sentRecords recvRecords sentLen recvLenOnline recvLen : Nat) (calls : List RlCall)
    (hc : .startTraffic ∉ calls) :
    let r := RecordLayer.online role otp sentRecords recvRecords sentLen recvLenOnline recvLen
    let h := r.history k peer calls
    (∀ x ∈ released h, x.typ ≠ .applicationData) ∧ (∀ x ∈ delivered h, x.typ ≠ .applicationData) :=
  let h := run_gate (k := k) (peer := peer) calls hc (r := RecordLayer.online role otp sentRecords recvRecords
    sentLen recvLenOnline recvLen) rfl
  ⟨h.1, h.2.1⟩

end Tlsn
