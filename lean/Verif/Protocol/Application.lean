import Verif.Protocol.Props
import Verif.Client.WithLeader

/-!
# From the caller of the TLS client to the user of the verifier

The TLS client with the leader as its backend (C129), the follower that gets the leader's messages (C70) and the verifier of the
statements (C95), with one session.
-/

namespace Tlsn.Protocol

open Tlsn.Mpc (LCall)

/-! ## Specification -/

/-- The keys of RFC 5246 for a pre-master secret and the randoms: a key block cut into the two keys and the two implicit nonces. -/
def keysOf (sha : Hmac.Sha) (secret clientRandom serverRandom : Bytes) : KeyBytes :=
  let b := sha.keyBlock (sha.masterSecret secret clientRandom serverRandom) clientRandom serverRandom
  ⟨b.take 16, (b.drop 32).take 4, (b.drop 16).take 16, (b.drop 36).take 4⟩

/-- The function of the record layer is AES in counter mode. -/
def CounterMode (aes : AesFn) (f : AeadFn) (key iv : Bytes) : Prop := ∀ nonce i, f.block nonce i = aes key (iv ++ (nonce ++ beBytes 4 i))

/-! ## Decryption -/

theorem blocks_get (g : Nat → Vector Byte 16) (n j : Nat) (h : j < 16 * n) :
    ((List.range n).flatMap fun i => (g i).toList)[j]? = some ((g (j / 16))[j % 16]'(Nat.mod_lt _ (by decide))) := by
  induction n with
  | zero => omega
  | succ n ih =>
    rw [List.range_succ, List.flatMap_append]
    have hl := flatMap_block_length g n
    by_cases hj : j < 16 * n
    · rw [List.getElem?_append_left (by omega), ih hj]
    · rw [List.getElem?_append_right (by omega), hl]
      have h1 : j / 16 = n := by omega
      have h2 : j - 16 * n = j % 16 := by omega
      subst h1
      rw [h2]
      simp [Nat.mod_lt]

theorem keystream_get (f : AeadFn) (nonce : Bytes) (len j : Nat) (h : j < len) :
    (f.keystream nonce len)[j]? = some ((f.block nonce (2 + j / 16))[j % 16]'(Nat.mod_lt _ (by decide))) := by
  have := divCeil16_le len
  rw [AeadFn.keystream, List.getElem?_take_of_lt h, blocks_get (fun i => f.block nonce (2 + i)) _ _ (by omega)]

theorem decrypt_xor {aes : AesFn} {f : AeadFn} {key iv : Bytes} (hf : CounterMode aes f key iv) (r : Record) :
    decryptRecord aes key iv r = xorBytes r.ciphertext (f.keystream r.nonce r.ciphertext.length) := by
  apply List.ext_getElem?
  intro j
  rw [decryptRecord, List.getElem?_mapIdx, xorBytes, List.getElem?_zipWith]
  by_cases hj : j < r.ciphertext.length
  · rw [keystream_get f _ _ _ hj, List.getElem?_eq_getElem hj, hf]
    rfl
  · rw [List.getElem?_eq_none (by omega)]
    rfl

/-- The application data of records that are of the same type and decrypt to what the others say. -/
theorem appData_same {aes : AesFn} {key iv : Bytes} {l f : List Record} (h : List.Forall₂ SameRecord l f)
    (hd : ∀ r ∈ l, r.plaintext = some (decryptRecord aes key iv r)) : appData aes key iv f = l.flatMap Client.recordData := by
  unfold appData
  induction h with
  | nil => rfl
  | @cons a b l f hr hrest ih =>
    have ih := ih fun r hr => hd r (List.mem_cons_of_mem _ hr)
    have ha := hd a List.mem_cons_self
    rw [List.filter_cons, List.flatMap_cons, ← ih, Client.recordData, hr.typ]
    by_cases ht : a.typ = .applicationData
    · rw [if_pos ht, if_pos (by simpa using ht), List.flatMap_cons, ha]
      congr 1
      simp only [decryptRecord, hr.ciphertext, hr.nonce, Option.getD_some]
    · rw [if_neg ht, if_neg (by simpa using ht), List.nil_append]

theorem sent_decrypts {aes : AesFn} {f : AeadFn} {key iv : Bytes} (hf : CounterMode aes f key iv) (peer : Nat → Bytes) (n : Nat)
    (cs : List LCall) : ∀ r ∈ (Mpc.outgoings n cs).map (·.inTranscript f peer .leader), r.plaintext = some (decryptRecord aes key iv r) := by
  intro r hr
  obtain ⟨s, hs, rfl⟩ := List.mem_map.1 hr
  obtain ⟨p, hp, hlen⟩ := outgoings_known cs n s hs
  rw [decrypt_xor hf]
  simp only [Sending.inTranscript, hp, Option.some.injEq, Sending.ciphertext, Sending.content, Option.getD_some, hlen]
  have h1 : (xorBytes p (f.keystream s.nonce p.length)).length = p.length := by simp
  rw [h1, xorBytes_cancel _ _ (by simp)]

theorem recv_decrypts {aes : AesFn} {f : AeadFn} {key iv : Bytes} (hf : CounterMode aes f key iv) (n : Nat)
    (cs : List LCall) : ∀ r ∈ (Mpc.incomings n cs).map (·.inTranscript f .leader), r.plaintext = some (decryptRecord aes key iv r) := by
  intro r hr
  obtain ⟨s, hs, rfl⟩ := List.mem_map.1 hr
  rw [decrypt_xor hf]
  simp [Receiving.inTranscript, Receiving.plaintext]

theorem prefix_get {α : Type} {a b : List α} (h : a <+: b) {x : Nat} (hx : x < a.length) : a[x]? = b[x]? := by
  obtain ⟨c, rfl⟩ := h
  rw [List.getElem?_append_left hx]

theorem incomings_nonce (cs : List LCall) (n : Nat) (h : ∀ m, .pushIncoming m ∈ cs → 24 ≤ m.payload.length) :
    ∀ s ∈ Mpc.incomings n cs, s.nonce.length = 8 := by
  induction cs generalizing n with
  | nil => intro s hs; cases hs
  | cons c cs ih =>
    have ih := fun n => ih n fun m hm => h m (List.mem_cons_of_mem _ hm)
    cases c with
    | pushIncoming m =>
      intro s hs
      rcases List.mem_cons.1 hs with rfl | hs
      · have := h m List.mem_cons_self
        simp only [List.length_take]
        omega
      · exact ih _ s hs
    | _ => exact ih n

theorem same_nonces {l f : List Record} (h : List.Forall₂ SameRecord l f) (hl : ∀ r ∈ l, r.nonce.length = 8) : ∀ r ∈ f, r.nonce.length = 8 := by
  induction h with
  | nil => intro r hr; cases hr
  | @cons a b l f hr _ ih =>
    intro r hm
    rcases List.mem_cons.1 hm with rfl | hm
    · rw [hr.nonce]; exact hl a List.mem_cons_self
    · exact ih (fun r hr => hl r (List.mem_cons_of_mem _ hr)) r hm

/-! ## C131 -/

/-- A session of both parties: the TLS client of the prover with its leader, and the follower of the verifier. -/
structure Joint where
  cfg : Client.ClientCfg
  B : Client.Backend
  /-- What the TLS client gets from its surroundings. -/
  W : Client.World
  c0 : Client.Conn
  calls : List Client.Call
  /-- What happens around `finish`. -/
  w : Mpc.World
  /-- The data that the leader puts into the common machine, by sequence number. -/
  pd : Nat → Bytes
  limits : Mpc.Limits
  sk : Nat
  vm : Hmac.Vm
  peerKey : Option Kex.Point
  /-- The messages that the follower gets. -/
  input : List (Mpc.Msg × Mpc.World)
  tL : TlsTranscript
  tF : TlsTranscript

/-- The history of the client. -/
def Joint.log (s : Joint) : List Client.Ev := (s.c0.run s.cfg s.W s.calls).1.io.common.log

/-- What the calls of the client's caller returned. -/
def Joint.results (s : Joint) := (s.c0.run s.cfg s.W s.calls).2

/-- The session took place: the client ran with the leader, whose calls were answered, the follower got the leader's messages, the
parties put their shares and data into the same machine, and both have a transcript. -/
structure Joint.Valid (s : Joint) : Prop where
  fresh : s.B.vm.Fresh
  setup : ∀ r ∈ (s.B.history []).2, r.2.Fine
  new : Client.Conn.new s.cfg = .ok s.c0
  faithful : Client.Faithful s.B.world s.log
  short : s.log.length + 3 ≤ 2 ^ 64
  answered : ∀ e ∈ s.log, e.Answered
  finished : ((s.B.history s.log).1.step s.B.D s.B.limits s.w .finish).2.2 = .finished (some s.tL)
  fresh' : s.vm.Fresh
  short' : s.input.length ≤ 2 ^ 64
  messages : s.input.map (·.1) = Mpc.sentMessages ((Mpc.Leader.new s.B.sk s.B.vm s.B.defer).run s.B.D s.B.limits (s.B.all s.log s.w)).2
  follower : Mpc.runFollower { s.B.D with peerData := s.pd } s.limits s.sk s.vm s.peerKey s.input = .ok s.tF
  shares : ∀ hs w hello w', (LCall.prepareEncryption hs, w) ∈ s.B.all s.log s.w → (.serverHello hello, w') ∈ s.input →
    ∃ p0 p1 q0 q1, w.share0 = .ok p0 ∧ w.share1 = .ok p1 ∧ w'.share0 = .ok q0 ∧ w'.share1 = .ok q1 ∧
      w.peerShares = some (Kex.fpBytes q0, Kex.fpBytes q1) ∧ w'.peerShares = some (Kex.fpBytes p0, Kex.fpBytes p1)
  data : ∀ x ∈ Mpc.outgoings 0 ((s.B.all s.log s.w).map (·.1)), x.plaintext = some (s.pd x.seq)

/-- The keys of the session: those of the sum of the shares. -/
def Joint.HasKeys (s : Joint) (k : KeyBytes) : Prop :=
  ∀ hs w q0 q1 p0, (LCall.prepareEncryption hs, w) ∈ s.B.all s.log s.w → w.share0 = .ok p0 →
    w.peerShares = some (Kex.fpBytes q0, Kex.fpBytes q1) → k = keysOf s.B.D.sha (Kex.fpBytes (p0 + q0)) s.B.random.toList hs.random.toList

/-- What `verify` reads of the follower's transcript. -/
def Joint.view (s : Joint) : SessionView := ⟨s.tF.sent, s.tF.recv, s.tF.time, some s.tF.certificateBinding.serverEphemeralKey⟩

/-- C131: the data of the session as the verifier has it, which is the decryption of the follower's records under the session's keys, begins
what the caller of the client wrote, and continues what this caller has read; and the follower's time and key are those of a
handshake in which the client checked the server. -/
theorem C131_session (s : Joint) (hs : s.Valid) (aes : AesFn)
    (haes : ∀ ck civ sk siv, CounterMode aes (s.B.D.aead ck civ sk siv).client ck civ ∧ CounterMode aes (s.B.D.aead ck civ sk siv).server sk siv)
    (k : KeyBytes) (hk : s.HasKeys k) :
    WellFormed s.view ∧
      (sessionData aes k s.view).sent <+: Client.written s.results ∧
      Client.readOut s.results <+: (sessionData aes k s.view).received ∧
      ∃ d : Client.Session, d.ServerOk s.cfg ∧ d.upToServerFinished s.cfg <+: Client.significant s.log ∧
        s.view.binding = some ⟨d.kx.publicKey⟩ ∧ ∃ hs w, (LCall.prepareEncryption hs, w) ∈ s.B.all s.log s.w ∧ s.view.time = w.now := by
  obtain ⟨hmem, hall, hl, hvd⟩ := Client.Backend.all_ok (log := s.log) hs.setup hs.new rfl hs.faithful hs.short hs.answered hs.finished
  obtain ⟨d, hok, hup, -, -, -, hkey, -, -, -, ⟨w', hs', p0, p1, secret, hprep, htime, -⟩, hwr, hrd, -⟩ :=
    Client.C129_transcript s.cfg s.B hs.fresh hs.setup s.W s.c0 hs.new s.calls s.log rfl hs.faithful hs.short hs.answered s.w s.tL hs.finished
  obtain ⟨e1, -, e3, e4, e5⟩ := C70_agreement s.B.D s.pd s.B.limits s.limits s.B.sk s.sk s.B.vm s.vm hs.fresh hs.fresh' s.B.defer s.peerKey _ s.input
    hl hs.short' hvd hall _ s.tL s.tF hmem hs.messages hs.follower hs.shares hs.data
  obtain ⟨pre, wc, post, msgs, cr, otp, pk, h, w, hc, hsv, p0', p1', secret', cert, alg, e, em, hcl⟩ := leader_finished hs.fresh hl hvd hall hmem
  have hcr : cr = s.B.random := by
    have h1 : LCall.alloc cr otp ∈ pre.map (·.1) := (List.mem_filter.1 (show _ ∈ Mpc.handshakeCalls pre by
      rcases hcl.calls with h | h <;> rw [h] <;> simp)).1
    have h2 : LCall.alloc cr otp ∈ (s.B.all s.log s.w).map (·.1) := by
      rw [e, List.map_append]
      exact List.mem_append_left _ h1
    rw [Client.Backend.all_fst] at h2
    simp only [List.mem_append, List.mem_cons, LCall.alloc.injEq, reduceCtorEq, List.not_mem_nil, or_false, List.mem_filterMap] at h2
    rcases h2 with h2 | ⟨x, -, h2⟩
    · exact h2.1
    · cases x <;> simp [Client.Ev.leaderCall] at h2
  obtain ⟨wF, hhello⟩ : ∃ wF, (Mpc.Msg.serverHello ⟨w.now, h.random, h.key⟩, wF) ∈ s.input := by
    have h1 : Mpc.Msg.serverHello ⟨w.now, h.random, h.key⟩ ∈ s.input.map (·.1) := by
      rw [hs.messages, em]
      refine List.mem_append_left _ (List.mem_filter.1 (show _ ∈ msgs.filter Mpc.Msg.isHandshake from ?_)).1
      rcases hcl.hsMsgs with h | h <;> rw [h] <;> simp
    obtain ⟨⟨m, wF⟩, hm, rfl⟩ := List.mem_map.1 h1
    exact ⟨wF, hm⟩
  have hmemA : (LCall.prepareEncryption h, w) ∈ s.B.all s.log s.w := by
    rw [e]
    exact List.mem_append_left _ hcl.mem
  obtain ⟨a0, a1, b0, b1, x1, x2, -, -, x5, -⟩ := hs.shares h w _ wF hmemA hhello
  obtain ⟨-, hsec⟩ := hcl.shares b0 b1 x5
  have hkb := hk h w b0 b1 a0 hmemA x1 x5
  rw [hcl.share0] at x1
  injection x1 with x1
  rw [← x1, ← hsec, ← hcr] at hkb
  have hf := haes k.clientKey k.clientIv k.serverKey k.serverIv
  have hfn : Mpc.sessionFns s.B.D secret' cr.toList h.random.toList = s.B.D.aead k.clientKey k.clientIv k.serverKey k.serverIv := by
    rw [hkb]; rfl
  have hlong : ∀ m, LCall.pushIncoming m ∈ pre.map (·.1) → 24 ≤ m.payload.length := by
    intro m hm
    refine Client.pushed_long _ _ hall m ?_
    rw [e, List.map_append]
    exact List.mem_append_left _ hm
  have d1 := sent_decrypts hf.1 s.B.D.peerData 0 (pre.map (·.1))
  have d2 := recv_decrypts hf.2 0 (pre.map (·.1))
  rw [← hfn, ← hcl.sent] at d1
  rw [← hfn, ← hcl.recv] at d2
  have s1 := appData_same e4 d1
  have s2 := appData_same e5 d2
  refine ⟨?_, ?_, ?_, d, hok, hup, ?_, hs', w', ?_, ?_⟩
  · rintro r (hr | hr) -
    · refine same_nonces e4 ?_ r hr
      rw [hcl.sent]
      intro r hr
      obtain ⟨x, -, rfl⟩ := List.mem_map.1 hr
      simp [Sending.inTranscript, Sending.nonce]
    · refine same_nonces e5 ?_ r hr
      rw [hcl.recv]
      intro r hr
      obtain ⟨x, hx, rfl⟩ := List.mem_map.1 hr
      exact incomings_nonce _ _ hlong x hx
  · show appData aes k.clientKey k.clientIv s.tF.sent <+: _
    rw [s1]; exact hwr
  · show _ <+: appData aes k.serverKey k.serverIv s.tF.recv
    rw [s2]; exact hrd
  · show some s.tF.certificateBinding.serverEphemeralKey = _
    rw [e3, ← hkey]
  · exact List.mem_append_left _ (List.mem_append_right _ hprep)
  · exact e1.trans htime

/-- C131: every output of the verifier about this session is true of the caller's data.  Whatever the prover sends and however often the
verifier's user is asked: a transcript in an output has at every sent position that it authenticates the byte that the caller
of the client wrote there, and at every received position that it authenticates, as far as the caller has read, the byte that
the caller read there; it is not longer than what was written and not shorter than what was read.  A server name in an output is one
for which certificates and a signature verify at the time of the handshake and with the key of a handshake in which the client
checked the server for the configured name. -/
theorem C131_output (s : Joint) (hs : s.Valid) (env : Env) (htls : env.tls = s.view)
    (haes : ∀ ck civ sk siv, CounterMode env.aes (s.B.D.aead ck civ sk siv).client ck civ ∧
      CounterMode env.aes (s.B.D.aead ck civ sk siv).server sk siv)
    (k : KeyBytes) (hk : s.HasKeys k) (vm : ZkVm) (hvm : HoldsKeys vm env.keys k)
    (cs : List VCall) (hcs : WellFormedCalls cs) (i : Nat) (out : VerifierOutput)
    (ho : ((VState.committed vm).run env cs).2[i]? = some (.output out)) :
    (∀ t, out.transcript = some t →
      (∀ x ∈ t.sentAuthed, x < t.sent.length → t.sent[x]? = (Client.written s.results)[x]?) ∧
      (∀ x ∈ t.receivedAuthed, x < (Client.readOut s.results).length → t.received[x]? = (Client.readOut s.results)[x]?) ∧
      t.sent.length ≤ (Client.written s.results).length ∧ (Client.readOut s.results).length ≤ t.received.length) ∧
    ∃ (d : Client.Session) (hs : Mpc.HsData) (w : Mpc.World), d.ServerOk s.cfg ∧ d.upToServerFinished s.cfg <+: Client.significant s.log ∧
      (LCall.prepareEncryption hs, w) ∈ s.B.all s.log s.w ∧
      ∀ name, out.serverName = some name → ∃ certs, ∃ hsd : HandshakeData, env.certs = some certs ∧ hsd.verify certs w.now ⟨d.kx.publicKey⟩ name = .ok () := by
  obtain ⟨hw, h1, h2, d, hok, hup, hb, hs', w', hp, ht⟩ := C131_session s hs env.aes haes k hk
  rw [← htls] at hw h1 h2 hb ht
  obtain ⟨j, msg, certs, -, -, -, -, hc, hT⟩ := C95_every_output env k vm hvm hw cs hcs i out ho
  refine ⟨fun t ht => ?_, d, hs', w', hok, hup, hp, fun name hn => ?_⟩
  · obtain ⟨-, l1, l2, a1, a2⟩ := hT.transcript t ht
    refine ⟨fun x hx hlt => ?_, fun x hx hlt => ?_, ?_, ?_⟩
    · rw [a1 x hx, prefix_get h1 (by omega)]
    · rw [a2 x hx, prefix_get h2 hlt]
    · rw [l1]; exact h1.length_le
    · rw [l2]; exact h2.length_le
  · rw [hT.name] at hn
    obtain ⟨⟨name', hsd⟩, hm, rfl⟩ := Option.map_eq_some_iff.1 hn
    obtain ⟨key, k1, k2⟩ := hT.identity _ hsd hm
    rw [hb] at k1
    cases k1
    exact ⟨certs, hsd, hc, by rw [← ht]; exact k2⟩

end Tlsn.Protocol
