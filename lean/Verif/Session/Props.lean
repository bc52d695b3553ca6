import Verif.Session.FollowerInv
import Verif.TlsTranscript.Props
import Verif.KeyExchange.Props

/-! # Properties of a connection: C43, C49 -/

namespace Tlsn

open Hmac Kex Mpc

/-! ## C49: the end of a connection -/

theorem alert_read (p : Bytes) : codecAlert.read (Reader.init p) = match p with
    | a :: b :: rest => some ((a, b), ⟨a :: b :: rest, 2⟩)
    | _ => none := by
  match p with
  | [] => rfl
  | [a] => rfl
  | a :: b :: rest =>
    simp [codecAlert, Codec.seq, codecU8, Reader.init, Rd.take, Rd.lift, decodeU8, bind, StateT.bind, Reader.left,
      pure, StateT.pure]

theorem checkCloseNotify_iff (records : List Record) : checkCloseNotify records = .ok () ↔ EndsProperly records := by
  unfold checkCloseNotify EndsProperly
  cases hl : records.getLast? with
  | none => simp
  | some last =>
    simp only [Option.some.injEq, forall_eq']
    cases ht : last.typ with
    | applicationData => simp
    | alert =>
      cases hp : last.plaintext with
      | none => simp
      | some p =>
        match p with
        | [] => simp [alert_read]
        | [a] => simp [alert_read]
        | a :: b :: rest => simp [alert_read]
    | _ => simp

theorem expectVd_iff (o : Option (Option Bytes)) (vd : Bytes) : expectVd o = .ok vd ↔ o = some (some vd) := by
  rcases o with _ | _ | v <;> simp [expectVd]

theorem vd_iff (records : List Record) (vd : Bytes) :
    (records.head?.map fun r => r.plaintext.bind TlsTranscript.dropHeader) = some (some vd) ↔ StartsWith records vd := by
  unfold StartsWith TlsTranscript.dropHeader
  constructor
  · intro h
    cases hr : records.head? with
    | none => rw [hr] at h; cases h
    | some r =>
      rw [hr] at h
      simp only [Option.map_some, Option.some.injEq] at h
      obtain ⟨p, hp, h⟩ := Option.bind_eq_some_iff.1 h
      split at h
      · rename_i hl
        cases h
        exact ⟨r, p.take 4, rfl, by simp; omega, by rw [hp, List.take_append_drop]⟩
      · cases h
  · rintro ⟨r, header, h1, h2, h3⟩
    rw [h1]
    simp [h3, h2]

/-- C49: the check at the end of a connection passes exactly if the first record of each direction is a handshake message whose
body is the verify data computed jointly, and both directions end properly. -/
theorem C49_verify_transcript (t : TlsTranscript) (cf sf : Bytes) :
    Mpc.verifyTranscript t cf sf = .ok () ↔
      StartsWith t.sent cf ∧ StartsWith t.recv sf ∧ EndsProperly t.sent ∧ EndsProperly t.recv := by
  rw [← vd_iff, ← vd_iff, ← checkCloseNotify_iff, ← checkCloseNotify_iff]
  have h1 : (t.sent.head?.map fun r => r.plaintext.bind TlsTranscript.dropHeader) = t.cfVd := rfl
  have h2 : (t.recv.head?.map fun r => r.plaintext.bind TlsTranscript.dropHeader) = t.sfVd := rfl
  rw [h1, h2]
  unfold Mpc.verifyTranscript
  constructor
  · intro h
    obtain ⟨c, e1, h⟩ := Outcome.bind_eq_ok.mp h
    split at h
    · cases h
    · rename_i n1
      obtain ⟨s, e2, h⟩ := Outcome.bind_eq_ok.mp h
      split at h
      · cases h
      · rename_i n2
        obtain ⟨_, e3, e4⟩ := Outcome.bind_eq_ok.mp h
        rw [expectVd_iff] at e1 e2
        exact ⟨by rw [e1, not_not.1 n1], by rw [e2, not_not.1 n2], e3, e4⟩
  · rintro ⟨e1, e2, e3, e4⟩
    rw [(expectVd_iff _ _).2 e1, Outcome.bind_ok, if_neg (by simp), (expectVd_iff _ _).2 e2, Outcome.bind_ok, if_neg (by simp), e3,
      Outcome.bind_ok, e4]

/-- C49: an alert that is hidden, that is too short or that is not `close_notify` at the end of a direction is refused, and so is
a handshake record. -/
theorem C49_refused (t : TlsTranscript) (cf sf : Bytes) (last : Record)
    (hl : t.sent.getLast? = some last ∨ t.recv.getLast? = some last) (ht : last.typ ≠ .applicationData)
    (hp : ∀ level rest, last.plaintext ≠ some (level :: 0 :: rest)) : Mpc.verifyTranscript t cf sf ≠ .ok () := by
  rw [ne_eq, C49_verify_transcript]
  rintro ⟨-, -, h1, h2⟩
  have key : ∀ l : List Record, EndsProperly l → l.getLast? = some last → False := by
    intro l h hl
    rcases h _ hl with h | ⟨-, a, b, h⟩
    · exact ht h
    · exact hp a b h
  rcases hl with hl | hl
  · exact key _ h1 hl
  · exact key _ h2 hl

/-! ## C43: what a follower accepts -/

theorem start_ok {D : Deps} {cfg : Limits} {sk : Nat} {vm : Vm} {peerKey : Option Point} (hvm : vm.Fresh) {f : Follower}
    (h : Follower.start D cfg sk vm peerKey = .ok f) : FInv D cfg vm.next [] [] f := by
  obtain ⟨c, hc, hinv, hr, hrl, hk, hro⟩ := Core.alloc_ok (D := D) (cfg := cfg) (role := .follower) (sk := sk) (otp := []) hvm
  unfold Follower.start at h
  rw [hc, Outcome.bind_ok] at h
  obtain ⟨c1, h1, h⟩ := Outcome.bind_eq_ok.mp h
  cases h
  unfold Core.preprocess Kx.setup at h1
  rw [hk] at h1
  cases peerKey with
  | none => cases h1
  | some p =>
    simp only [Outcome.ok.injEq] at h1
    subst h1
    refine ⟨hinv.congr rfl rfl rfl, ?_, hro, rfl, rfl, .init _ ⟨_, rfl⟩ hr rfl ⟨rfl, rfl⟩, sizes_quiet quiet_nil⟩
    intro k _
    exact ⟨hrl.symm, fun _ hx => (by cases hx)⟩

/-- What a follower has been through when it returns a transcript. -/
theorem followerRun_ok {D : Deps} {cfg : Limits} {n : Nat} (input : List (Msg × World)) {hist : List (Msg × World)} {ops : List PrfOp}
    {f : Follower} {t : TlsTranscript} (h : FInv D cfg n hist ops f) (hx : f.run D input = .ok t) :
    ∃ pre wc rest ops' f', input = pre ++ (.closeConnection, wc) :: rest ∧ (∀ x ∈ pre, x.1 ≠ .closeConnection) ∧
      FInv D cfg n (hist ++ pre) ops' f' ∧ f'.close D wc = .ok t := by
  induction input generalizing hist ops f with
  | nil => cases hx
  | cons x xs ih =>
    obtain ⟨m, w⟩ := x
    by_cases hm : m = .closeConnection
    · subst hm
      exact ⟨[], w, xs, ops, f, rfl, by simp, by simpa using h, hx⟩
    · have hx' : (f.step D w m >>= fun f => f.run D xs) = .ok t := by
        cases m <;> first | exact hx | exact absurd rfl hm
      obtain ⟨f1, h1, h2⟩ := Outcome.bind_eq_ok.mp hx'
      obtain ⟨ops1, i1⟩ := h.step m w hm h1
      obtain ⟨pre, wc, rest, ops', f', e1, e2, e3, e4⟩ := ih i1 h2
      refine ⟨(m, w) :: pre, wc, rest, ops', f', by rw [e1]; rfl, ?_, by simpa using e3, e4⟩
      intro y hy
      rcases List.mem_cons.1 hy with rfl | hy
      · exact hm
      · exact e2 y hy

theorem orHs_ok {α : Type} {o : Option α} {a : α} (h : orHs o = .ok a) : o = some a := by
  cases o with
  | none => cases h
  | some _ => cases h; rfl

theorem buildTranscript_ok {D : Deps} {b : TtBuilder} {t : TlsTranscript} (h : buildTranscript D b = .ok t) :
    b.build D.tt = .ok t := by
  unfold buildTranscript at h
  split at h
  · cases h; assumption
  · cases h
  · cases h

/-- C43: if the follower returns a transcript, then the messages up to the first `CloseConnection` contain exactly one client
random, then one server hello, then one hash for each Finished message and no other message of the handshake; the time of the hello
is within five seconds of the follower's clock at its arrival, the group of its key is secp256r1 and the key is a point.  The
transcript carries the time, the randoms and the key of these messages, its records are those that the messages ask to encrypt and
decrypt under the keys of RFC 5246, the first record of each direction is the Finished message of RFC 5246 for the hash in the
message, and both directions end properly.  The pre-master secret is the sum of the parties' shares, which is the same for both pairs
of shares. -/
theorem C43_accepts (D : Deps) (cfg : Limits) (sk : Nat) (vm : Vm) (hvm : vm.Fresh) (peerKey : Option Point)
    (input : List (Msg × World)) (hl : input.length ≤ 2 ^ 64) (t : TlsTranscript)
    (h : runFollower D cfg sk vm peerKey input = .ok t) :
    ∃ pre wc rest cr hello w hc hs p0 p1 secret,
      input = pre ++ (.closeConnection, wc) :: rest ∧ (∀ x ∈ pre, x.1 ≠ .closeConnection) ∧
      (handshakes pre = [.setClientRandom cr, .serverHello hello, .clientFinishedVd hc, .serverFinishedVd hs] ∨
        handshakes pre = [.setClientRandom cr, .serverHello hello, .serverFinishedVd hs, .clientFinishedVd hc]) ∧
      (.serverHello hello, w) ∈ pre ∧ hello.time ≤ w.now + 5 ∧ w.now ≤ hello.time + 5 ∧
      hello.key.group = .secp256r1 ∧ (∃ p, D.parseKey hello.key.key = some p) ∧
      t.time = hello.time ∧ t.version = .v12 ∧ t.certificateBinding = ⟨cr, hello.random, ⟨hello.key.key⟩⟩ ∧
      t.serverSignature = none ∧ t.serverCertChain = none ∧
      w.share0 = .ok p0 ∧ w.share1 = .ok p1 ∧
      (∀ q0 q1, w.peerShares = some (fpBytes q0, fpBytes q1) → q0 + p0 = q1 + p1 ∧ secret = fpBytes (q0 + p0)) ∧
      let master := D.sha.masterSecret secret cr.toList hello.random.toList
      let b := D.sha.keyBlock master cr.toList hello.random.toList
      let k := D.aead (b.take 16) ((b.drop 32).take 4) ((b.drop 16).take 16) ((b.drop 36).take 4)
      t.sent = (sendings 0 (pre.map (·.1))).map (·.inTranscript k.client D.peerData .follower) ∧
      t.recv = (receivings 0 (pre.map (·.1))).map (·.inTranscript k.server .follower) ∧
      StartsWith t.sent (D.sha.clientVerifyData master hc.toList) ∧
      StartsWith t.recv (D.sha.serverVerifyData master hs.toList) ∧
      RecordsOk t.sent ∧ RecordsOk t.recv ∧ EndsProperly t.sent ∧ EndsProperly t.recv := by
  unfold runFollower at h
  obtain ⟨f0, h0, h⟩ := Outcome.bind_eq_ok.mp h
  obtain ⟨pre, wc, rest, ops, f, e1, e2, hf, hx⟩ := followerRun_ok input (start_ok hvm h0) h
  rw [List.nil_append] at hf
  unfold Follower.close at hx
  obtain ⟨⟨c', sent, recv⟩, h1, hx⟩ := Outcome.bind_eq_ok.mp hx
  obtain ⟨hello, h2, hx⟩ := Outcome.bind_eq_ok.mp hx
  obtain ⟨cr, h3, hx⟩ := Outcome.bind_eq_ok.mp hx
  obtain ⟨cf', h4, hx⟩ := Outcome.bind_eq_ok.mp hx
  obtain ⟨sf', h5, hx⟩ := Outcome.bind_eq_ok.mp hx
  obtain ⟨key, h6, hx⟩ := Outcome.bind_eq_ok.mp hx
  obtain ⟨t1, h7, hx⟩ := Outcome.bind_eq_ok.mp hx
  obtain ⟨_, h8, hx⟩ := Outcome.bind_eq_ok.mp hx
  cases hx
  replace h2 := orHs_ok h2
  replace h3 := orHs_ok h3
  replace h4 := orHs_ok h4
  replace h5 := orHs_ok h5
  have hcalls : (pre.filterMap rlCall).length ≤ 2 ^ 64 := by
    have a := List.length_filterMap_le rlCall pre
    have b : pre.length ≤ input.length := by rw [e1]; simp
    omega
  obtain ⟨k, k1, k2, k3, k4, k5⟩ := hf.rl.commit hcalls h1
  have hst := hf.stage
  cases hst with
  | init => cases h2
  | random => cases h2
  | hello core cr' hello' w p0 p1 o fin cf sf hh hr hfin hs hfh =>
    cases h2; cases h3; cases h4; cases h5
    rw [accepted_fine _ _ _ _ _ k3, callSendings_msgs] at k4
    rw [incoming_fine _ _ _ _ _ k3, callReceivings_msgs] at k5
    have hk : k = sessionFns D (secretOf D .follower p0 p1 o).1 cr.toList hello.random.toList :=
      Core.fns_ok hf.core k1 ((outAt D.add vm.next (·.1)).val.mono _ _ _ hf.core.le hh.secret) hf.crs hf.srs
    have hb := buildTranscript_ok h7
    obtain ⟨b1, b2, b3, b4, b5, b6, b7, b8, b9, -⟩ := (C42_given_iff D.tt _ rfl rfl sent recv rfl rfl t).1 hb
    unfold ephemKey at h6
    rw [if_pos hh.group] at h6
    cases h6
    obtain ⟨v1, v2, v3, v4⟩ := (C49_verify_transcript _ _ _).1 h8
    have hsh : ∀ q0 q1, w.peerShares = some (fpBytes q0, fpBytes q1) → q0 + p0 = q1 + p1 ∧
        (secretOf D .follower p0 p1 o).1 = fpBytes (q0 + p0) := by
      intro q0 q1 hq
      have ho := hh.peer _ hq
      obtain ⟨c1, c2, c3⟩ := C45_circuit D.add q0 p0 q1 p1
      have hag := hh.agree
      rw [ho] at hag ⊢
      refine ⟨c3.1 ((C45_check _ _ _ _ _ _).2 hag), c1⟩
    have hnear := hh.near
    simp only [tooFar, decide_eq_false_iff_not, not_lt] at hnear
    refine ⟨pre, wc, rest, cr, hello, w, ?_⟩
    have fin' : ∃ hc hs', (fin = [.clientFinishedVd hc, .serverFinishedVd hs'] ∨ fin = [.serverFinishedVd hs', .clientFinishedVd hc]) ∧
        cf' = D.sha.clientVerifyData (D.sha.masterSecret (secretOf D .follower p0 p1 o).1 cr.toList hello.random.toList) hc.toList ∧
        sf' = D.sha.serverVerifyData (D.sha.masterSecret (secretOf D .follower p0 p1 o).1 cr.toList hello.random.toList) hs'.toList := by
      cases hfin with
      | cs hc hs' => exact ⟨hc, hs', Or.inl rfl, rfl, rfl⟩
      | sc hc hs' => exact ⟨hc, hs', Or.inr rfl, rfl, rfl⟩
    obtain ⟨hc, hs', hfin', rfl, rfl⟩ := fin'
    refine ⟨hc, hs', p0, p1, (secretOf D .follower p0 p1 o).1, e1, e2, ?_, hh.mem, ?_, ?_, hh.group,
      Option.isSome_iff_exists.1 hh.parsed, (Option.some.inj b3).symm, (Option.some.inj b4).symm, (Option.some.inj b5).symm, b6, b7,
      hh.share0, hh.share1, hsh, ?_, ?_, v1, v2, b8 ▸ b1, b9 ▸ b2, v3, v4⟩
    · rcases hfin' with rfl | rfl
      · exact Or.inl hs
      · exact Or.inr hs
    · split at hnear <;> omega
    · split at hnear <;> omega
    · rw [b8, k4, hk]; rfl
    · rw [b9, k5, hk]; rfl

end Tlsn
