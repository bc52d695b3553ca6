import Verif.Session.LeaderInv
import Verif.Session.Panics

/-! # Properties of the leader, alone and with a follower: C69, C70 -/

namespace Tlsn

open Hmac Kex Mpc

/-! ## Runs -/

theorem vdOnce_prefix {a b : List (LCall × World)} (h : VdOnce (a ++ b)) : VdOnce a := by
  obtain ⟨h1, h2⟩ := h
  rw [clientVdCalls_append, List.length_append] at h1
  rw [serverVdCalls_append, List.length_append] at h2
  exact ⟨by omega, by omega⟩

theorem leader_run_append (D : Deps) (cfg : Limits) (l : Leader) (xs ys : List (LCall × World)) :
    l.run D cfg (xs ++ ys) = (((l.run D cfg xs).1.run D cfg ys).1, (l.run D cfg xs).2 ++ ((l.run D cfg xs).1.run D cfg ys).2) := by
  induction xs generalizing l with
  | nil => rfl
  | cons x xs ih =>
    obtain ⟨c, w⟩ := x
    simp only [List.cons_append, Leader.run, ih]

theorem sentMessages_append (a b : List (List Msg × LResult)) : sentMessages (a ++ b) = sentMessages a ++ sentMessages b := by
  simp [sentMessages]

theorem leader_run_inv {D : Deps} {cfg : Limits} {n : Nat} (calls : List (LCall × World)) {hist : List (LCall × World)}
    {msgs : List Msg} {l : Leader} (h : LInv D cfg n hist msgs l.state) (honce : VdOnce (hist ++ calls))
    (hx : ∀ r ∈ (l.run D cfg calls).2, r.2.Fine) :
    LInv D cfg n (hist ++ calls) (msgs ++ sentMessages (l.run D cfg calls).2) (l.run D cfg calls).1.state := by
  induction calls generalizing hist msgs l with
  | nil => simpa [Leader.run, sentMessages] using h
  | cons x xs ih =>
    obtain ⟨c, w⟩ := x
    have e : hist ++ (c, w) :: xs = (hist ++ [(c, w)]) ++ xs := by simp
    rw [e] at honce ⊢
    have h1 := h.step (D := D) (cfg := cfg) c w (vdOnce_prefix honce) (hx _ List.mem_cons_self)
    have h2 := ih h1 honce (fun r hr => hx r (List.mem_cons_of_mem _ hr))
    have e2 : sentMessages (l.run D cfg ((c, w) :: xs)).2 = (l.step D cfg w c).2.1 ++ sentMessages ((l.step D cfg w c).1.run D cfg xs).2 := by
      simp [Leader.run, sentMessages]
    rw [e2, ← List.append_assoc]
    exact h2

/-- A transcript comes out of a closed leader. -/
theorem finished_split {D : Deps} {cfg : Limits} (calls : List (LCall × World)) {l : Leader} {ms : List Msg} {t : TlsTranscript}
    (h : (ms, LResult.finished (some t)) ∈ (l.run D cfg calls).2) :
    ∃ c1 w c2 rl, calls = c1 ++ (.finish, w) :: c2 ∧ (l.run D cfg c1).1.state = .closed rl t := by
  induction calls generalizing l with
  | nil => cases h
  | cons x xs ih =>
    obtain ⟨c, w⟩ := x
    rcases List.mem_cons.1 h with h | h
    · have hc : (l.step D cfg w c).2.2 = .finished (some t) := (congrArg Prod.snd h).symm
      have key : c = .finish := by
        obtain ⟨st, d⟩ := l
        cases c with
        | finish => rfl
        | clientRandom => cases st <;> cases hc
        | clientKeyShare =>
          exfalso
          simp only [Leader.step, Leader.clientKeyShare] at hc
          split at hc
          · split at hc <;> cases hc
          · cases hc
        | isEmpty => cases hc
        | enableDecryption => cases hc
        | alloc =>
          exfalso
          simp only [Leader.step, Leader.alloc] at hc
          split at hc
          · cases hr : Core.alloc D cfg .leader _ _ _ <;> rw [hr] at hc <;> cases hc
          · cases hc
        | preprocess pk =>
          exfalso
          simp only [Leader.step, Leader.preprocess] at hc
          split at hc
          · split at hc
            · split at hc <;> cases hc
            · rename_i r _
              cases hr : Core.preprocess _ pk <;> rw [hr] at hc <;> cases hc
          · cases hc
        | prepareEncryption hs =>
          exfalso
          simp only [Leader.step, Leader.prepareEncryption] at hc
          split at hc
          · split at hc
            · cases hc
            · split at hc
              · cases hc
              · revert hc
                generalize (Core.setServerRandom _ _ >>= _ : Outcome Err Core) = r
                intro hc
                cases r <;> cases hc
          · cases hc
        | closeConnection =>
          exfalso
          simp only [Leader.step, Leader.closeConnection] at hc
          split at hc
          · split at hc
            · cases hc
            · revert hc
              generalize (Active.close D _ w) = r
              intro hc
              cases r <;> cases hc
          · cases hc
        | nextIncoming =>
          exfalso
          simp only [Leader.step, Leader.nextIncoming] at hc
          split at hc
          · cases hc
          · split at hc
            · cases hc
            · split at hc <;> cases hc
        | nextOutgoing =>
          exfalso
          simp only [Leader.step, Leader.nextOutgoing] at hc
          split at hc
          · cases hc
          · split at hc
            · cases hc
            · split at hc <;> cases hc
        | clientFinishedVd hash =>
          exfalso
          simp only [Leader.step, Leader.inActive] at hc
          split at hc
          · simp only [Active.clientFinishedVd] at hc
            split at hc
            · cases hc
            · split at hc
              · cases hc
              · split at hc <;> cases hc
          · cases hc
        | serverFinishedVd hash =>
          exfalso
          simp only [Leader.step, Leader.inActive] at hc
          split at hc
          · simp only [Active.serverFinishedVd] at hc
            split at hc
            · cases hc
            · split at hc
              · cases hc
              · split at hc <;> cases hc
          · cases hc
        | pushIncoming m =>
          exfalso
          simp only [Leader.step, Leader.inActive] at hc
          split at hc
          · simp only [Active.pushIncoming] at hc
            split at hc
            · cases hc
            · cases hc
            · split at hc
              · cases hc
              · split at hc <;> cases hc
          · cases hc
        | pushOutgoing m =>
          exfalso
          simp only [Leader.step, Leader.inActive] at hc
          split at hc
          · simp only [Active.pushOutgoing] at hc
            split at hc
            · cases hc
            · split at hc <;> cases hc
          · cases hc
        | startTraffic =>
          exfalso
          simp only [Leader.step, Leader.inActive] at hc
          split at hc
          · simp only [Active.startTraffic] at hc
            split at hc <;> cases hc
          · cases hc
        | flush =>
          exfalso
          simp only [Leader.step, Leader.flush] at hc
          split at hc
          · cases hc
          · cases hc
          · simp only [Leader.inActive] at hc
            split at hc
            · simp only [Active.flush] at hc
              split at hc
              · cases hc
              · split at hc
                · cases hc
                · revert hc
                  generalize (Core.flushActive D _ w _).2 = r
                  intro hc
                  cases r <;> cases hc
            · cases hc
      subst key
      have hf : l.finish.2 = some t := by
        have : LResult.finished l.finish.2 = .finished (some t) := hc
        exact (LResult.finished.inj this)
      unfold Leader.finish at hf
      split at hf
      · rename_i rl t' hs
        cases hf
        exact ⟨[], w, xs, rl, rfl, hs⟩
      · cases hf
    · obtain ⟨c1, w', c2, rl, e, hs⟩ := ih h
      exact ⟨(c, w) :: c1, w', c2, rl, by rw [e]; rfl, hs⟩

theorem leader_ofClosed {D : Deps} {cfg : Limits} {n : Nat} {hist : List (LCall × World)} {msgs : List Msg} {rl : RecordLayer}
    {t : TlsTranscript} (h : LInv D cfg n hist msgs (.closed rl t)) :
    ∃ pre wc post msgs' a rl', hist = pre ++ (.closeConnection, wc) :: post ∧ msgs = msgs' ++ [.closeConnection] ∧
      LInv D cfg n pre msgs' (.active a) ∧ a.close D wc = .ok (rl', t) := by
  cases h with
  | closed pre wc post msgs a rl rl' t h hc => exact ⟨pre, wc, post, msgs, a, rl', rfl, rfl, h, hc⟩

theorem leader_ofActive {D : Deps} {cfg : Limits} {n : Nat} {hist : List (LCall × World)} {msgs : List Msg} {a : Active}
    (h : LInv D cfg n hist msgs (.active a)) :
    ∃ otp pk w p0 p1 o fin ops rc, LActive D cfg n hist msgs a otp pk w p0 p1 o fin ops rc := by
  cases h with
  | active _ _ _ otp pk w p0 p1 o fin ops rc h => exact ⟨otp, pk, w, p0, p1, o, fin, ops, rc, h⟩

/-- The facts about a leader that was closed. -/
structure LClosed (D : Deps) (pre : List (LCall × World)) (msgs : List Msg) (t : TlsTranscript) (cr : Vector Byte 32) (otp : Bytes)
    (pk : Option Point) (hs : HsData) (w : World) (hc hsv : Vector Byte 32) (p0 p1 : Fp) (secret cert : Bytes)
    (alg : SignatureAlgorithm) : Prop where
  isOpen : ∀ x ∈ pre, x.1 ≠ .closeConnection
  noclose : Msg.closeConnection ∉ msgs
  calls : handshakeCalls pre = [.alloc cr otp, .preprocess pk, .prepareEncryption hs, .clientFinishedVd hc.toList, .serverFinishedVd hsv.toList] ∨
    handshakeCalls pre = [.alloc cr otp, .preprocess pk, .prepareEncryption hs, .serverFinishedVd hsv.toList, .clientFinishedVd hc.toList]
  hsMsgs : msgs.filter Msg.isHandshake =
      [.setClientRandom cr, .serverHello ⟨w.now, hs.random, hs.key⟩, .clientFinishedVd hc, .serverFinishedVd hsv] ∨
    msgs.filter Msg.isHandshake =
      [.setClientRandom cr, .serverHello ⟨w.now, hs.random, hs.key⟩, .serverFinishedVd hsv, .clientFinishedVd hc]
  told : sendings 0 msgs = (outgoings 0 (pre.map (·.1))).map Sending.told
  heard : receivings 0 msgs = incomings 0 (pre.map (·.1))
  mem : (.prepareEncryption hs, w) ∈ pre
  group : hs.key.group = .secp256r1
  parsed : ∃ p, D.parseKey hs.key.key = some p
  time : t.time = w.now
  version : t.version = .v12
  binding : t.certificateBinding = ⟨cr, hs.random, ⟨hs.key.key⟩⟩
  certOk : hs.chain.head? = some cert
  algOk : D.sigAlg cert (cr.toList ++ hs.random.toList ++ hs.kxParams) hs.scheme hs.sig = some alg
  sig : t.serverSignature = some ⟨alg, hs.sig⟩
  chain : t.serverCertChain = some hs.chain
  share0 : w.share0 = .ok p0
  share1 : w.share1 = .ok p1
  shares : ∀ q0 q1, w.peerShares = some (fpBytes q0, fpBytes q1) → p0 + q0 = p1 + q1 ∧ secret = fpBytes (p0 + q0)
  sent : t.sent = (outgoings 0 (pre.map (·.1))).map
    (·.inTranscript (sessionFns D secret cr.toList hs.random.toList).client D.peerData .leader)
  recv : t.recv = (incomings 0 (pre.map (·.1))).map (·.inTranscript (sessionFns D secret cr.toList hs.random.toList).server .leader)
  cf : StartsWith t.sent (D.sha.clientVerifyData (D.sha.masterSecret secret cr.toList hs.random.toList) hc.toList)
  sf : StartsWith t.recv (D.sha.serverVerifyData (D.sha.masterSecret secret cr.toList hs.random.toList) hsv.toList)
  sentOk : RecordsOk t.sent
  recvOk : RecordsOk t.recv
  sentEnd : EndsProperly t.sent
  recvEnd : EndsProperly t.recv

theorem leader_closed {D : Deps} {cfg : Limits} {n : Nat} {pre : List (LCall × World)} {msgs : List Msg} {a : Active}
    {otp : Bytes} {pk : Option Point} {w : World} {p0 p1 : Fp} {o : Bytes × Bytes} {fin : List Msg} {ops : List PrfOp}
    {rc : List RlCall} (h : LActive D cfg n pre msgs a otp pk w p0 p1 o fin ops rc) (hl : pre.length ≤ 2 ^ 64) {wc : World}
    {rl : RecordLayer} {t : TlsTranscript} (hx : a.close D wc = .ok (rl, t)) :
    ∃ hc hsv cert alg, LClosed D pre msgs t a.clientRandom otp pk a.hs w hc hsv p0 p1 (secretOf D .leader p0 p1 o).1 cert alg := by
  unfold Active.close at hx
  obtain ⟨⟨c', sent, recv⟩, h1, hx⟩ := Outcome.bind_eq_ok.mp hx
  split at hx
  · rename_i cf sf hcf hsf
    split at hx
    · cases hx
    · rename_i cert hcert
      split at hx
      · cases hx
      · rename_i alg halg
        obtain ⟨key, h6, hx⟩ := Outcome.bind_eq_ok.mp hx
        obtain ⟨t1, h7, hx⟩ := Outcome.bind_eq_ok.mp hx
        obtain ⟨_, h8, hx⟩ := Outcome.bind_eq_ok.mp hx
        cases hx
        obtain ⟨k, k1, k2, k3, k4, k5⟩ := h.rl.commit (le_trans h.trace.length hl) h1
        rw [accepted_fine _ _ _ _ _ k3, h.trace.sent] at k4
        rw [incoming_fine _ _ _ _ _ k3, h.trace.recv] at k5
        have hk : k = sessionFns D (secretOf D .leader p0 p1 o).1 a.clientRandom.toList a.hs.random.toList :=
          Core.fns_ok h.core k1 ((outAt D.add n (·.1)).val.mono _ _ _ h.core.le h.led.secret) h.crs h.srs
        obtain ⟨b1, b2, b3, b4, b5, b6, b7, b8, b9, -⟩ :=
          (C42_given_iff D.tt _ rfl rfl sent recv rfl rfl t).1 (buildTranscript_ok h7)
        unfold ephemKey at h6
        rw [if_pos h.led.group] at h6
        cases h6
        obtain ⟨v1, v2, v3, v4⟩ := (C49_verify_transcript _ _ _).1 h8
        have hsh : ∀ q0 q1, w.peerShares = some (fpBytes q0, fpBytes q1) → p0 + q0 = p1 + q1 ∧
            (secretOf D .leader p0 p1 o).1 = fpBytes (p0 + q0) := by
          intro q0 q1 hq
          have ho := h.led.peer _ hq
          obtain ⟨c1, c2, c3⟩ := C45_circuit D.add p0 q0 p1 q1
          have hag := h.led.agree
          rw [ho] at hag ⊢
          exact ⟨c3.1 ((C45_check _ _ _ _ _ _).2 hag), c1⟩
        have fin' : ∃ hc hs', (fin = [.clientFinishedVd hc, .serverFinishedVd hs'] ∨ fin = [.serverFinishedVd hs', .clientFinishedVd hc]) ∧
            cf = D.sha.clientVerifyData (D.sha.masterSecret (secretOf D .leader p0 p1 o).1 a.clientRandom.toList a.hs.random.toList) hc.toList ∧
            sf = D.sha.serverVerifyData (D.sha.masterSecret (secretOf D .leader p0 p1 o).1 a.clientRandom.toList a.hs.random.toList) hs'.toList := by
          have hfin := h.fins
          rw [hcf, hsf] at hfin
          cases hfin with
          | cs hc hs' => exact ⟨hc, hs', Or.inl rfl, rfl, rfl⟩
          | sc hc hs' => exact ⟨hc, hs', Or.inr rfl, rfl, rfl⟩
        obtain ⟨hc, hsv, hfin, rfl, rfl⟩ := fin'
        have hcalls := h.calls
        have hmsgs := h.told
        refine ⟨hc, hsv, cert, alg, h.trace.isOpen, h.trace.noclose, ?_, ?_, h.trace.told, h.trace.heard, h.led.mem, h.led.group,
          Option.isSome_iff_exists.1 h.led.parsed, (Option.some.inj b3).symm.trans h.time, (Option.some.inj b4).symm,
          (Option.some.inj b5).symm, hcert, halg, b6, b7, h.led.share0, h.led.share1, hsh, ?_, ?_, v1, v2, b8 ▸ b1, b9 ▸ b2, v3, v4⟩
        · rcases hfin with rfl | rfl
          · exact Or.inl hcalls
          · exact Or.inr hcalls
        · rcases hfin with rfl | rfl
          · exact Or.inl hmsgs
          · exact Or.inr hmsgs
        · rw [b8, k4, hk]
        · rw [b9, k5, hk]
  · cases hx

/-- What is known of a leader that has returned a transcript. -/
theorem leader_finished {D : Deps} {cfg : Limits} {sk : Nat} {vm : Vm} (hvm : vm.Fresh) {defer : Bool}
    {calls : List (LCall × World)} (hl : calls.length ≤ 2 ^ 64) (honce : VdOnce calls)
    (hfine : ∀ r ∈ ((Leader.new sk vm defer).run D cfg calls).2, r.2.Fine) {ms : List Msg} {t : TlsTranscript}
    (ht : (ms, .finished (some t)) ∈ ((Leader.new sk vm defer).run D cfg calls).2) :
    ∃ pre wc post msgs cr otp pk hs w hc hsv p0 p1 secret cert alg, calls = pre ++ (.closeConnection, wc) :: post ∧
      sentMessages ((Leader.new sk vm defer).run D cfg calls).2 = msgs ++ [.closeConnection] ∧
      LClosed D pre msgs t cr otp pk hs w hc hsv p0 p1 secret cert alg := by
  obtain ⟨c1, w1, c2, rl, e, hst⟩ := finished_split calls ht
  have h0 : LInv D cfg vm.next [] [] (Leader.new sk vm defer).state :=
    .init _ _ sk vm hvm rfl rfl rfl ⟨rfl, rfl, by simp, by simp, rfl, rfl, by simp, by simp⟩
  have hinv := leader_run_inv (D := D) (cfg := cfg) c1 h0 (by rw [e] at honce; exact vdOnce_prefix honce)
    (fun r hr => hfine r (by rw [e, leader_run_append]; exact List.mem_append_left _ hr))
  rw [hst, List.nil_append, List.nil_append] at hinv
  obtain ⟨pre, wc, post, msgs, a, rl', e1, e2, ha, hc⟩ := leader_ofClosed hinv
  obtain ⟨otp, pk, w, p0, p1, o, fin, ops, rc, hA⟩ := leader_ofActive ha
  have hlen : pre.length ≤ 2 ^ 64 := by
    rw [e, e1] at hl
    simp only [List.length_append, List.length_cons] at hl
    omega
  obtain ⟨hc', hsv, cert, alg, hcl⟩ := leader_closed hA hlen hc
  refine ⟨pre, wc, post ++ (.finish, w1) :: c2, msgs, _, otp, pk, _, w, hc', hsv, p0, p1, _, cert, alg, ?_, ?_, hcl⟩
  · rw [e, e1]; simp
  · rw [e, leader_run_append, sentMessages_append, e2]
    have silent : ∀ (cs : List (LCall × World)) (l : Leader), Silent l.state → sentMessages (l.run D cfg cs).2 = [] := by
      intro cs
      induction cs with
      | nil => intro l _; rfl
      | cons x xs ih =>
        obtain ⟨c, w⟩ := x
        intro l hl
        obtain ⟨h1, h2⟩ := Silent.step (D := D) (cfg := cfg) hl w c
        simp only [Leader.run, sentMessages, List.flatMap_cons, h2, List.nil_append]
        exact ih _ h1
    rw [silent _ _ (by rw [hst]; trivial), List.append_nil]

/-! ## C69 -/

/-- C69: if no call on a leader fails, the verify data are asked for once, and `finish` returns a transcript, then the calls up to
the first `close_connection` contain one of each step of the handshake in its order.  The transcript carries the clock at
`prepare_encryption`, the randoms, the key, the certificates and the signature of the handshake, with the algorithm under which the
signature over the randoms and the parameters verifies; its records are what was pushed, encrypted or decrypted under the keys of
RFC 5246; the first record of each direction is the Finished message of RFC 5246 for the given hash, and both directions end
properly.  The pre-master secret is the sum of the shares, which is the same for both pairs of shares. -/
theorem C69_transcript (D : Deps) (cfg : Limits) (sk : Nat) (vm : Vm) (hvm : vm.Fresh) (defer : Bool)
    (calls : List (LCall × World)) (hl : calls.length ≤ 2 ^ 64) (honce : VdOnce calls)
    (hfine : ∀ r ∈ ((Leader.new sk vm defer).run D cfg calls).2, r.2.Fine) (ms : List Msg) (t : TlsTranscript)
    (ht : (ms, .finished (some t)) ∈ ((Leader.new sk vm defer).run D cfg calls).2) :
    ∃ pre wc post cr otp pk hs w, ∃ hc hsv : Vector Byte 32, ∃ p0 p1 secret cert alg,
      calls = pre ++ (.closeConnection, wc) :: post ∧ (∀ x ∈ pre, x.1 ≠ .closeConnection) ∧
      (handshakeCalls pre = [.alloc cr otp, .preprocess pk, .prepareEncryption hs, .clientFinishedVd hc.toList, .serverFinishedVd hsv.toList] ∨
        handshakeCalls pre = [.alloc cr otp, .preprocess pk, .prepareEncryption hs, .serverFinishedVd hsv.toList, .clientFinishedVd hc.toList]) ∧
      (.prepareEncryption hs, w) ∈ pre ∧ hs.key.group = .secp256r1 ∧ (∃ p, D.parseKey hs.key.key = some p) ∧
      t.time = w.now ∧ t.version = .v12 ∧ t.certificateBinding = ⟨cr, hs.random, ⟨hs.key.key⟩⟩ ∧
      hs.chain.head? = some cert ∧ t.serverCertChain = some hs.chain ∧
      D.sigAlg cert (cr.toList ++ hs.random.toList ++ hs.kxParams) hs.scheme hs.sig = some alg ∧
      t.serverSignature = some ⟨alg, hs.sig⟩ ∧
      w.share0 = .ok p0 ∧ w.share1 = .ok p1 ∧
      (∀ q0 q1, w.peerShares = some (fpBytes q0, fpBytes q1) → p0 + q0 = p1 + q1 ∧ secret = fpBytes (p0 + q0)) ∧
      let master := D.sha.masterSecret secret cr.toList hs.random.toList
      let b := D.sha.keyBlock master cr.toList hs.random.toList
      let k := D.aead (b.take 16) ((b.drop 32).take 4) ((b.drop 16).take 16) ((b.drop 36).take 4)
      t.sent = (outgoings 0 (pre.map (·.1))).map (·.inTranscript k.client D.peerData .leader) ∧
      t.recv = (incomings 0 (pre.map (·.1))).map (·.inTranscript k.server .leader) ∧
      StartsWith t.sent (D.sha.clientVerifyData master hc.toList) ∧
      StartsWith t.recv (D.sha.serverVerifyData master hsv.toList) ∧
      RecordsOk t.sent ∧ RecordsOk t.recv ∧ EndsProperly t.sent ∧ EndsProperly t.recv := by
  obtain ⟨pre, wc, post, msgs, cr, otp, pk, hs, w, hc, hsv, p0, p1, secret, cert, alg, e, -, h⟩ := leader_finished hvm hl honce hfine ht
  exact ⟨pre, wc, post, cr, otp, pk, hs, w, hc, hsv, p0, p1, secret, cert, alg, e, h.isOpen, h.calls, h.mem, h.group, h.parsed, h.time,
    h.version, h.binding, h.certOk, h.chain, h.algOk, h.sig, h.share0, h.share1, h.shares, h.sent, h.recv, h.cf, h.sf, h.sentOk, h.recvOk,
    h.sentEnd, h.recvEnd⟩

/-- C69: `finish` returns a transcript at most once, whatever is called and however it ends. -/
theorem C69_finish_once (D : Deps) (cfg : Limits) (l : Leader) (calls : List (LCall × World)) :
    ((l.run D cfg calls).2.filter fun r => match r.2 with | .finished (some _) => true | _ => false).length ≤ 1 := by
  have err : ∀ (cs : List (LCall × World)) (l : Leader), l.state = .error →
      (l.run D cfg cs).2.filter (fun r => match r.2 with | .finished (some _) => true | _ => false) = [] := by
    intro cs
    induction cs with
    | nil => intro l _; rfl
    | cons x xs ih =>
      obtain ⟨c, w⟩ := x
      intro l hl
      have h1 : (l.step D cfg w c).1.state = .error ∧
          (match (l.step D cfg w c).2.2 with | .finished (some _) => true | _ => false) = false := by
        obtain ⟨st, d⟩ := l
        cases hl
        cases c <;> exact ⟨rfl, rfl⟩
      simp only [Leader.run, List.filter_cons, h1.2, ih _ h1.1]
      rfl
  induction calls generalizing l with
  | nil => simp [Leader.run]
  | cons x xs ih =>
    obtain ⟨c, w⟩ := x
    simp only [Leader.run, List.filter_cons]
    split
    · rename_i hf
      obtain ⟨c1, w1, c2, rl, e, hs⟩ : ∃ c1 w1 c2 rl, [(c, w)] = c1 ++ (LCall.finish, w1) :: c2 ∧
          ∃ t, (l.run D cfg c1).1.state = .closed rl t := by
        revert hf
        cases hr : (l.step D cfg w c).2.2 with
        | finished o =>
          cases o with
          | none => intro h; cases h
          | some t =>
            intro _
            obtain ⟨c1, w1, c2, rl, e, hs⟩ := finished_split (D := D) (cfg := cfg) [(c, w)] (l := l) (ms := (l.step D cfg w c).2.1) (t := t)
              (by simp only [Leader.run, List.mem_singleton]; exact Prod.ext rfl hr.symm)
            exact ⟨c1, w1, c2, rl, e, t, hs⟩
        | _ => intro h; cases h
      obtain ⟨t, hs⟩ := hs
      cases c1 with
      | nil =>
        cases e
        have : (l.step D cfg w .finish).1.state = .error := by
          obtain ⟨st, d⟩ := l
          have hs' : st = .closed rl t := hs
          subst hs'
          rfl
        rw [err _ _ this]
        simp
      | cons y ys =>
        cases ys <;> cases e
    · exact ih _

/-! ## C70 -/

theorem split_unique {α : Type} {x : α} {a b c : List α} (h : a ++ x :: c = b ++ [x]) (ha : x ∉ a) (hb : x ∉ b) : a = b := by
  induction a generalizing b with
  | nil =>
    cases b with
    | nil => rfl
    | cons y ys => cases h; exact absurd List.mem_cons_self hb
  | cons z zs ih =>
    cases b with
    | nil => have := congrArg List.length h; simp at this
    | cons y ys =>
      injection h with h1 h2
      subst h1
      rw [ih h2 (fun hm => ha (List.mem_cons_of_mem _ hm)) (fun hm => hb (List.mem_cons_of_mem _ hm))]

theorem forall₂_refl_mem {α : Type} {R : α → α → Prop} (l : List α) (h : ∀ x ∈ l, R x x) : List.Forall₂ R l l := by
  induction l with
  | nil => exact .nil
  | cons x xs ih => exact .cons (h x List.mem_cons_self) (ih fun y hy => h y (List.mem_cons_of_mem _ hy))

theorem outgoings_known (cs : List LCall) (n : Nat) : ∀ s ∈ outgoings n cs, ∃ p, s.plaintext = some p ∧ s.len = p.length := by
  induction cs generalizing n with
  | nil => intro s hs; cases hs
  | cons c cs ih =>
    cases c with
    | pushOutgoing m =>
      intro s hs
      rcases List.mem_cons.1 hs with rfl | hs
      · exact ⟨_, rfl, rfl⟩
      · exact ih _ s hs
    | _ => exact ih n

/-- C70: if the leader finishes with a transcript and the follower, who got the leader's messages, returns one too, then both are of
the same time, version, randoms and key, and have the same records: the follower's have the leader's type, sequence number, nonce
and ciphertext, and its plaintext unless it is application data, which the follower does not see.  The parties share the functions
and the machine: each puts in its shares, and the leader its application data. -/
theorem C70_agreement (D : Deps) (pd : Nat → Bytes) (cfg cfg' : Limits) (sk sk' : Nat) (vm vm' : Vm) (hvm : vm.Fresh)
    (hvm' : vm'.Fresh) (defer : Bool) (peerKey : Option Point) (calls : List (LCall × World)) (input : List (Msg × World))
    (hl : calls.length ≤ 2 ^ 64) (hl' : input.length ≤ 2 ^ 64) (honce : VdOnce calls)
    (hfine : ∀ r ∈ ((Leader.new sk vm defer).run D cfg calls).2, r.2.Fine) (ms : List Msg) (tL tF : TlsTranscript)
    (ht : (ms, .finished (some tL)) ∈ ((Leader.new sk vm defer).run D cfg calls).2)
    (hin : input.map (·.1) = sentMessages ((Leader.new sk vm defer).run D cfg calls).2)
    (hF : runFollower { D with peerData := pd } cfg' sk' vm' peerKey input = .ok tF)
    (hshares : ∀ hs w hello w', (.prepareEncryption hs, w) ∈ calls → (.serverHello hello, w') ∈ input →
      ∃ p0 p1 q0 q1, w.share0 = .ok p0 ∧ w.share1 = .ok p1 ∧ w'.share0 = .ok q0 ∧ w'.share1 = .ok q1 ∧
        w.peerShares = some (fpBytes q0, fpBytes q1) ∧ w'.peerShares = some (fpBytes p0, fpBytes p1))
    (hdata : ∀ s ∈ outgoings 0 (calls.map (·.1)), s.plaintext = some (pd s.seq)) :
    tF.time = tL.time ∧ tF.version = tL.version ∧ tF.certificateBinding = tL.certificateBinding ∧
      List.Forall₂ SameRecord tL.sent tF.sent ∧ List.Forall₂ SameRecord tL.recv tF.recv := by
  obtain ⟨pre, wc, post, msgs, cr, otp, pk, hs, w, hc, hsv, p0, p1, secret, cert, alg, e, em, h⟩ := leader_finished hvm hl honce hfine ht
  obtain ⟨preF, wcF, restF, crF, hello, wF, hcF, hsF, q0, q1, secretF, eF, nF, hsk, hmem, -, -, -, -, t1, t2, t3, -, -, s0, s1, hsec, k1, k2, -⟩ :=
    C43_accepts _ cfg' sk' vm' hvm' peerKey input hl' tF hF
  have hm : preF.map (·.1) = msgs := by
    refine split_unique (x := Msg.closeConnection) (c := restF.map (·.1)) ?_ ?_ h.noclose
    · rw [← em, ← hin, eF]; simp
    · intro hx
      obtain ⟨y, hy, hy'⟩ := List.mem_map.1 hx
      exact nF y hy hy'
  have hhs : handshakes preF = msgs.filter Msg.isHandshake := by rw [← hm]; rfl
  have same : cr = crF ∧ hello = ⟨w.now, hs.random, hs.key⟩ := by
    rw [hhs] at hsk
    rcases h.hsMsgs with h1 | h1 <;> rcases hsk with h2 | h2 <;> rw [h1] at h2
    · cases h2; exact ⟨rfl, rfl⟩
    · cases h2
    · cases h2
    · cases h2; exact ⟨rfl, rfl⟩
  obtain ⟨rfl, rfl⟩ := same
  obtain ⟨a0, a1, b0, b1, x1, x2, x3, x4, x5, x6⟩ := hshares hs w _ wF (by rw [e]; exact List.mem_append_left _ h.mem)
    (by rw [eF]; exact List.mem_append_left _ hmem)
  obtain rfl : a0 = p0 := by rw [h.share0] at x1; cases x1; rfl
  obtain rfl : a1 = p1 := by rw [h.share1] at x2; cases x2; rfl
  obtain rfl : b0 = q0 := by rw [s0] at x3; cases x3; rfl
  obtain rfl : b1 = q1 := by rw [s1] at x4; cases x4; rfl
  obtain ⟨-, y1⟩ := h.shares _ _ x5
  obtain ⟨-, y2⟩ := hsec _ _ x6
  have ek : secretF = secret := by rw [y1, y2]
  subst ek
  refine ⟨by rw [t1, h.time], by rw [t2, h.version], by rw [t3, h.binding], ?_, ?_⟩
  · rw [k1, h.sent, hm, h.told, List.map_map, List.forall₂_map_left_iff, List.forall₂_map_right_iff]
    refine forall₂_refl_mem _ fun s hsm => ?_
    have hsm' : s ∈ outgoings 0 (calls.map (·.1)) := by
      rw [e, List.map_append, outgoings_append]
      exact List.mem_append_left _ hsm
    obtain ⟨p, hp, hlen⟩ := outgoings_known _ _ s hsm
    refine sameSending_record (k := sessionFns D secretF cr.toList hs.random.toList) (l := s) (f := Mpc.Sending.told s)
      ⟨rfl, rfl, rfl, rfl, rfl⟩ (by rw [hp]; rfl) ?_ ?_
    · intro p' hp'
      rw [hp] at hp'
      cases hp'
      exact hlen.symm
    · intro p' hp'
      have := hdata s hsm'
      rw [hp'] at this
      exact (Option.some.inj this).symm
  · rw [k2, h.recv, hm, h.heard, List.forall₂_map_left_iff, List.forall₂_map_right_iff]
    exact forall₂_refl_mem _ fun s _ => sameReceiving_record _ s

/-! ## Examples -/

namespace MpcExample

/-- The world of the leader, whose follower has the shares 4 and 2. -/
def leaderWorld : World := ⟨1000, .ok 3, .ok 5, some (fpBytes 4, fpBytes 2), true, true⟩

def hsData : HsData := ⟨random 2, ⟨.secp256r1, [4, 1, 2]⟩, [[9, 9], [8]], [3, 0, 23], 0x0403, [7, 7, 7]⟩

/-- The calls of a connection whose messages are `messages`, with a request of three bytes. -/
def leaderCalls (request : Bytes) : List LCall := [
  .alloc (random 1) (.replicate 100 5), .preprocess (some basePoint), .clientRandom, .prepareEncryption hsData,
  .clientFinishedVd (random 3).toList, .pushOutgoing ⟨.handshake, .tls12, cf⟩, .flush, .nextOutgoing,
  .serverFinishedVd (random 4).toList, .pushIncoming ⟨.handshake, .tls12, .replicate 8 0 ++ sf ++ .replicate 16 0⟩, .flush,
  .nextIncoming, .startTraffic, .pushOutgoing ⟨.applicationData, .tls12, request⟩, .flush, .nextOutgoing,
  .enableDecryption false,
  .pushIncoming ⟨.applicationData, .tls12, .replicate 8 1 ++ [50, 51] ++ .replicate 16 0⟩, .flush,
  .pushOutgoing ⟨.alert, .tls12, [1, 0]⟩, .flush, .nextOutgoing, .isEmpty]

def lead (calls : List LCall) : List (List Msg × LResult) :=
  ((Leader.new 2 emptyVm false).run deps limits ((calls ++ [LCall.closeConnection, .finish, .finish]).map (·, leaderWorld))).2

def fine : LResult → Bool
  | .failed _ => false
  | .panicked => false
  | _ => true

def transcripts (out : List (List Msg × LResult)) : List TlsTranscript :=
  out.filterMap fun r => match r.2 with | .finished (some t) => some t | _ => none

/-- No call fails, there is one transcript, and the messages are those of the follower's example. -/
example : (lead (leaderCalls [60, 61, 62])).all (fun r => fine r.2) = true ∧
    (transcripts (lead (leaderCalls [60, 61, 62]))).length = 1 ∧
    sentMessages (lead (leaderCalls [60, 61, 62])) = messages 1000 ++ [Msg.closeConnection] := by decide +kernel

example : (transcripts (lead (leaderCalls [60, 61, 62]))).all (fun t =>
    decide (t.time = 1000 ∧ t.sent.map (·.plaintext) = [some cf, some [60, 61, 62], some [1, 0]] ∧
      t.recv.map (·.plaintext) = [some sf, some [50, 51]] ∧ t.serverCertChain = some [[9, 9], [8]] ∧
      t.serverSignature = some ⟨.ecdsaP256Sha256, [7, 7, 7]⟩)) = true := by decide +kernel

/-- The hypotheses of C69 and C70 on the calls. -/
example : VdOnce ((leaderCalls [60, 61, 62] ++ [LCall.closeConnection, .finish]).map (·, leaderWorld)) ∧
    (∀ s ∈ outgoings 0 (leaderCalls [60, 61, 62]), s.plaintext = some ((fun n => if n = 0 then cf else if n = 1 then [60, 61, 62] else [1, 0]) s.seq)) := by
  refine ⟨by unfold VdOnce; decide +kernel, by decide +kernel⟩

/-- The follower accepts these messages with the leader's data. -/
example : (match runFollower { deps with peerData := fun n => if n = 0 then cf else if n = 1 then [60, 61, 62] else [1, 0] } limits 2 emptyVm
      (some basePoint) ((sentMessages (lead (leaderCalls [60, 61, 62]))).map (·, world)) with
    | .ok t => decide (t.sent.map (·.ciphertext) = [cf, [60, 61, 62], [1, 0]] ∧ t.recv.map (·.ciphertext) = [sf, [50, 51]])
    | _ => false) = true := by decide +kernel

/-- C71: another request of the same length gives the same messages, one of another length does not. -/
example : sentMessages (lead (leaderCalls [1, 2, 3])) = sentMessages (lead (leaderCalls [60, 61, 62])) ∧
    sentMessages (lead (leaderCalls [1, 2, 3, 4])) ≠ sentMessages (lead (leaderCalls [60, 61, 62])) := by decide +kernel

/-- Wrong orders, other ends of the connection and other Finished messages: no transcript. -/
example : transcripts (lead ((leaderCalls [1, 2, 3]).take 20)) = [] ∧
    transcripts (lead ((leaderCalls [1, 2, 3]).drop 1)) = [] ∧
    transcripts (lead ((leaderCalls [1, 2, 3]).eraseIdx 4)) = [] ∧
    transcripts (lead ((leaderCalls [1, 2, 3]).set 4 (.clientFinishedVd (random 4).toList))) = [] ∧
    transcripts (lead ((leaderCalls [1, 2, 3]).set 8 (.serverFinishedVd (random 3).toList))) = [] ∧
    transcripts (lead ((leaderCalls [1, 2, 3]).set 19 (.pushOutgoing ⟨.alert, .tls12, [1, 1]⟩))) = [] ∧
    transcripts (lead ((leaderCalls [1, 2, 3]).set 3 (.prepareEncryption { hsData with key := ⟨.other 29, [4, 1, 2]⟩ }))) = [] := by
  decide +kernel

end MpcExample

end Tlsn
