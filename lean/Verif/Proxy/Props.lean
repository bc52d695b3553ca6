import Verif.Proxy.Finalize
import Verif.Auth.Props

/-! # What the verifier of the proxy mode accepts (C89, C90, C91) -/

namespace Tlsn.Proxy

open Hmac

/-! ## The specification -/

/-- The record is the encryption with AES-GCM (RFC 5288: the first block of the keystream has the counter 2) of four bytes and the
verify data. -/
def EncryptsFinished (aes : AesFn) (key iv : Bytes) (r : Record) (verifyData : Bytes) : Prop :=
  ∃ header : Bytes, header.length = 4 ∧
    r.ciphertext = xorBytes (header ++ verifyData) (aes key (iv ++ (r.nonce ++ beBytes 4 2))).toList

/-- The bytes that went through the proxy are a TLS 1.2 connection whose keys follow from the master secret:

* the transcript is that of the bytes;
* both finished records are encrypted under the keys that the master secret and the randoms on the wire give, and hold the verify
  data for this master secret and the handshake messages on the wire;
* every received record carries its AES-GCM tag under the key of the server. -/
structure Genuine (S : Sha) (env : TtEnv) (aes : AesFn) (ms sentBytes recvBytes : Bytes) (time : Nat) (t : TlsTranscript) : Prop where
  built : (verifierBuilder time sentBytes recvBytes).build env = .ok t
  finished : ∃ sent recv f cf sf, RecordStream sentBytes sent ∧ RecordStream recvBytes recv ∧ IsHandshake sent recv f ∧
    t.sent.head? = some cf ∧ t.recv.head? = some sf ∧
    let k := keysOf S ms t.certificateBinding.clientRandom.toList t.certificateBinding.serverRandom.toList
    let clientData := S.clientVerifyData ms (env.sha256 (messageBytes f.clientFinished))
    let serverData := S.serverVerifyData ms (env.sha256 (messageBytes (f.serverFinished clientData)))
    EncryptsFinished aes k.clientKey k.clientIv cf clientData ∧ EncryptsFinished aes k.serverKey k.serverIv sf serverData
  tags :
    let k := keysOf S ms t.certificateBinding.clientRandom.toList t.certificateBinding.serverRandom.toList
    ∀ r ∈ t.recv, r.tag = some (recordTag aes k.serverKey k.serverIv (aes k.serverKey (List.replicate 16 0)).toList t.version r)

/-- The session as the proving phase sees it. -/
def viewOf (t : TlsTranscript) : SessionView := ⟨t.sent, t.recv, t.time, some t.certificateBinding.serverEphemeralKey⟩

/-! ## Lengths -/

theorem prf_length (S : Sha) (k l s : Bytes) (n : Nat) : (S.prf k l s n).length = n := by
  have : ∀ (m : Nat) (F : Nat → Bytes), (∀ i, (F i).length = 32) → ((List.range m).flatMap F).length = 32 * m := by
    intro m F hF
    induction m with
    | zero => rfl
    | succ m ih => rw [List.range_succ, List.flatMap_append, List.length_append, ih]; simp [hF]; omega
  unfold Sha.prf Sha.pHash
  rw [List.length_take, this _ _ (fun i => S.hmac_length _ _)]
  omega

theorem keysOf_length (S : Sha) (ms cr sr : Bytes) :
    (keysOf S ms cr sr).clientKey.length = 16 ∧ (keysOf S ms cr sr).clientIv.length = 4 ∧
    (keysOf S ms cr sr).serverKey.length = 16 ∧ (keysOf S ms cr sr).serverIv.length = 4 := by
  have h : (S.keyBlock ms cr sr).length = 40 := prf_length _ _ _ _ _
  simp [keysOf, h]

theorem encryptsFinished_iff (aes : AesFn) (key iv : Bytes) (r : Record) (vd : Bytes) (hv : vd.length = 12) :
    EncryptsFinished aes key iv r vd ↔ r.ciphertext.length = 16 ∧ vd = finishedBytes aes key iv r := by
  unfold EncryptsFinished finishedBytes
  generalize hb : (aes key (iv ++ (r.nonce ++ beBytes 4 2))).toList = b
  have hbl : b.length = 16 := by rw [← hb]; simp
  constructor
  · rintro ⟨h, hl, e⟩
    rw [e]
    refine ⟨by simp [hl, hv, hbl], ?_⟩
    rw [xorBytes_cancel _ _ (by simp [hl, hv, hbl]), List.drop_append_of_le_length (by omega), List.drop_of_length_le (by omega)]
    rfl
  · rintro ⟨hl, e⟩
    refine ⟨(xorBytes r.ciphertext b).take 4, by simp [hl, hbl], ?_⟩
    rw [e, List.take_append_drop, xorBytes_cancel _ _ (by omega)]

/-! ## The memory -/

theorem holds_keys (fill : Nat → Byte) (ck ci sk si mac : Bytes) (h1 : ck.length = 16) (h2 : ci.length = 4) (h3 : sk.length = 16)
    (h4 : si.length = 4) (h5 : mac.length = 16) :
    HoldsKeys ⟨ck ++ (ci ++ (sk ++ (si ++ mac))), fill, [], []⟩ keyRefs ⟨ck, ci, sk, si⟩ ∧
    macRef.addr + macRef.len ≤ (ck ++ (ci ++ (sk ++ (si ++ mac)))).length ∧
    ZkVm.read ⟨ck ++ (ci ++ (sk ++ (si ++ mac))), fill, [], []⟩ macRef = mac := by
  have e : ∀ (a b c : Bytes) (n m : Nat), a.length = n → b.length = m → ((a ++ (b ++ c)).drop n).take m = b := by
    intro a b c n m hn hm
    rw [← hn, List.drop_left, ← hm, List.take_left]
  refine ⟨⟨⟨?_, ?_⟩, ⟨?_, ?_⟩, ⟨?_, ?_⟩, ⟨?_, ?_⟩⟩, ?_, ?_⟩
  all_goals first
    | (simp [keyRefs, macRef, h1, h2, h3, h4, h5]; done)
    | skip
  · show (List.drop 0 _).take 16 = _
    rw [List.drop_zero, ← h1, List.take_left]
  · exact e ck ci _ 16 4 h1 h2
  · have := e (ck ++ ci) sk (si ++ mac) 20 16 (by simp [h1, h2]) h3
    simp only [List.append_assoc] at this
    exact this
  · have := e (ck ++ (ci ++ sk)) si mac 36 4 (by simp [h1, h2, h3]) h4
    simp only [List.append_assoc] at this
    exact this
  · have := e (ck ++ (ci ++ (sk ++ si))) mac [] 40 16 (by simp [h1, h2, h3, h4]) h5
    simp only [List.append_assoc, List.append_nil] at this
    exact this

/-! ## What a built transcript is -/

theorem built_facts {env : TtEnv} {time : Nat} {sentBytes recvBytes : Bytes} {t : TlsTranscript}
    (h : (verifierBuilder time sentBytes recvBytes).build env = .ok t) :
    ∃ sent recv f, RecordStream sentBytes sent ∧ RecordStream recvBytes recv ∧ IsHandshake sent recv f ∧
      t.cfHash = some (env.sha256 (messageBytes f.clientFinished)) ∧
      (∀ vd : Bytes, vd.length = 12 → t.sfHashWith env vd = some (some (env.sha256 (messageBytes (f.serverFinished vd))))) ∧
      RecordsOfWire (protectedRecords sent) none t.sent ∧ RecordsOfWire (protectedRecords recv) none t.recv ∧ t.time = time := by
  obtain ⟨sent, recv, f, v, d, h1, h2, h3, -, -, h4, -, -, -, -, h5, h6, h7, -, h9⟩ :=
    (build_raw_iff env (verifierBuilder time sentBytes recvBytes) sentBytes recvBytes rfl rfl t).1 h
  obtain ⟨_, hw, h5⟩ := h5
  cases hw
  obtain ⟨_, hw, h6⟩ := h6
  cases hw
  refine ⟨sent, recv, f, h1, h2, h3, h7, fun vd hv => ?_, h5, h6, ?_⟩
  · unfold TlsTranscript.sfHashWith
    rw [h9]
    simp only [sfHash_flights env f vd hv, Option.map_some]
  · have : some time = some t.time := h4
    exact (Option.some.inj this).symm

theorem wire_records {w : List OpaqueMessage} {l : List Record} (h : RecordsOfWire w none l) :
    (∃ r rest, l = r :: rest) ∧ ∀ r ∈ l, r.nonce.length = 8 := by
  constructor
  · obtain ⟨m, rest, hw, -⟩ := h.first
    have := h.len
    rw [hw] at this
    cases l with
    | nil => cases this
    | cons r rest => exact ⟨r, rest, rfl⟩
  · intro r hr
    obtain ⟨i, hi⟩ := List.mem_iff_getElem?.1 hr
    have hlt : i < w.length := by
      rw [← h.len]
      exact (List.getElem?_eq_some_iff.1 hi).1
    exact (h.enc i w[i] r (List.getElem?_eq_getElem hlt) hi).nonce

theorem handshake_unique {sent recv : List OpaqueMessage} {f f' : Flights} (h : IsHandshake sent recv f)
    (h' : IsHandshake sent recv f') : f = f' :=
  flights_unique h.valid h'.valid (h.sent_eq.symm.trans h'.sent_eq) (h.recv_eq.symm.trans h'.recv_eq)

/-! ## The verdict -/

/-- Everything after the forwarding. -/
theorem verdict (S : Sha) (env : TtEnv) (aes : AesFn) (fill : Nat → Byte) (ms sentBytes recvBytes : Bytes) (time : Nat)
    (hsha : ∀ b, (env.sha256 b).length = 32) (hms : ms.length = 48) (t : TlsTranscript)
    (hb : (verifierBuilder time sentBytes recvBytes).build env = .ok t) :
    let run : Outcome ProxyError Committed := Party.alloc S aes >>= fun p =>
      verifierFinalize S env p sentBytes recvBytes time ms >>= fun (p, t) => verifierChecks aes fill p t
    let k := keysOf S ms t.certificateBinding.clientRandom.toList t.certificateBinding.serverRandom.toList
    (Genuine S env aes ms sentBytes recvBytes time t → ∃ c, run = .ok c ∧ c.transcript = t ∧
      HoldsKeys c.zk keyRefs ⟨k.clientKey, k.clientIv, k.serverKey, k.serverIv⟩) ∧
    (¬ Genuine S env aes ms sentBytes recvBytes time t → ∃ e, run = .err e) := by
  intro run k
  obtain ⟨sent, recv, f, h1, h2, h3, h4, h5, h6, h7, -⟩ := built_facts hb
  obtain ⟨⟨cf, srest, hcf⟩, hn1⟩ := wire_records h6
  obtain ⟨⟨sf, rrest, hsf⟩, hn2⟩ := wire_records h7
  have hcd : (S.clientVerifyData ms (env.sha256 (messageBytes f.clientFinished))).length = 12 := prf_length _ _ _ _ _
  generalize hcdef : S.clientVerifyData ms (env.sha256 (messageBytes f.clientFinished)) = cd at hcd
  obtain ⟨p, hp, hbad, hgood⟩ := compute_spec S env aes t ms _ cf sf hms h4 (hsha _) _ (by rw [hcdef]; exact h5 cd hcd) (hsha _)
    (by rw [TlsTranscript.clientFinished, hcf]; rfl) (by rw [TlsTranscript.serverFinished, hsf]; rfl)
    (hn1 cf (by rw [hcf]; simp)) (hn2 sf (by rw [hsf]; simp))
  rw [hcdef] at hgood
  generalize hsdef : S.serverVerifyData ms (env.sha256 (messageBytes (f.serverFinished cd))) = sd at hgood
  have hsd : sd.length = 12 := by rw [← hsdef]; exact prf_length _ _ _ _ _
  obtain ⟨l1, l2, l3, l4⟩ := keysOf_length S ms t.certificateBinding.clientRandom.toList t.certificateBinding.serverRandom.toList
  obtain ⟨hold, hmac, hread⟩ := holds_keys fill k.clientKey k.clientIv k.serverKey k.serverIv
    (aes k.serverKey (List.replicate 16 0)).toList l1 l2 l3 l4 (by simp)
  generalize hzk : (⟨k.clientKey ++ (k.clientIv ++ (k.serverKey ++ (k.serverIv ++
    (aes k.serverKey (List.replicate 16 0)).toList))), fill, [], []⟩ : ZkVm) = zk at hold hread
  -- the run in terms of the checks
  have hrun : run = (p.compute S env t ms >>= fun p => verifierChecks aes fill p t) := by
    show (Party.alloc S aes >>= _) = _
    rw [hp]
    simp only [Outcome.bind_ok, verifierFinalize, hb]
    cases p.compute S env t ms <;> rfl
  have hspec : Genuine S env aes ms sentBytes recvBytes time t ↔
      (cf.ciphertext.length = 16 ∧ cd = finishedBytes aes k.clientKey k.clientIv cf) ∧
      (sf.ciphertext.length = 16 ∧ sd = finishedBytes aes k.serverKey k.serverIv sf) ∧
      ∀ r ∈ t.recv, r.tag =
        some (recordTag aes k.serverKey k.serverIv (aes k.serverKey (List.replicate 16 0)).toList t.version r) := by
    constructor
    · rintro ⟨-, ⟨sent', recv', f', cf', sf', a1, a2, a3, a4, a5, a6, a7⟩, a8⟩
      obtain rfl := recordStream_unique h1 a1
      obtain rfl := recordStream_unique h2 a2
      obtain rfl := handshake_unique h3 a3
      rw [hcf] at a4
      rw [hsf] at a5
      cases a4; cases a5
      simp only [hcdef, hsdef] at a6 a7
      exact ⟨(encryptsFinished_iff _ _ _ _ _ hcd).1 a6, (encryptsFinished_iff _ _ _ _ _ hsd).1 a7, a8⟩
    · rintro ⟨a1, a2, a3⟩
      refine ⟨hb, ⟨sent, recv, f, cf, sf, h1, h2, h3, by rw [hcf]; rfl, by rw [hsf]; rfl, ?_, ?_⟩, a3⟩
      · simp only [hcdef]; exact (encryptsFinished_iff _ _ _ _ _ hcd).2 a1
      · simp only [hcdef, hsdef]; exact (encryptsFinished_iff _ _ _ _ _ hsd).2 a2
  rw [hspec, hrun]
  by_cases hl : cf.ciphertext.length ≠ 16 ∨ sf.ciphertext.length ≠ 16
  · rw [hbad hl]
    refine ⟨fun h => ?_, fun _ => ⟨_, rfl⟩⟩
    rcases hl with hl | hl
    · exact absurd h.1.1 hl
    · exact absurd h.2.1.1 hl
  · have hl1 : cf.ciphertext.length = 16 := Classical.byContradiction fun h => hl (.inl h)
    have hl2 : sf.ciphertext.length = 16 := Classical.byContradiction fun h => hl (.inr h)
    obtain ⟨p', hp', hmem, hc1, hc2⟩ := hgood hl1 hl2
    have hmem' : keyMemory fill p'.vm.execute p'.refs = some zk := by rw [← hzk]; exact hmem fill
    obtain ⟨zk', proof, t1, t2, t3, -⟩ := (C35_accept_iff aes zk keyRefs.serverKey keyRefs.serverIv macRef t.version t.recv
      hold.sk.1 hold.si.1 (by rw [← hzk]; exact hmac)).2 hn2
    have hgrew : Grew zk zk' := by
      obtain ⟨v', g1, g2⟩ := allocJ0s_ok aes keyRefs.serverKey keyRefs.serverIv _ _ t.recv (vm := zk) ⟨hold.sk.1, rfl⟩ ⟨hold.si.1, rfl⟩ hn2
      simp only [verifyTags, g1, Outcome.bind_ok, Outcome.pure_eq, Outcome.ok.injEq, Prod.mk.injEq] at t1
      obtain ⟨rfl, -⟩ := t1
      exact g2
    rw [hold.sk.2, hold.si.2, hread] at t2
    rw [hp']
    have hchk : verifierChecks aes fill p' t =
        match proof.verify with
        | .err e => .err (.tag e)
        | .panic => .panic
        | .ok () => p'.cfCheck.check p'.vm.execute >>= fun _ => p'.sfCheck.check p'.vm.execute >>= fun _ => .ok ⟨zk', t⟩ := by
      unfold verifierChecks
      simp only [hmem', t1]
      cases proof.verify <;> rfl
    simp only [Outcome.bind_ok, hchk, hc1, hc2]
    constructor
    · rintro ⟨⟨-, a1⟩, ⟨-, a2⟩, a3⟩
      rw [t2.2 a3]
      refine ⟨⟨zk', t⟩, ?_, rfl, ?_⟩
      · simp only [k] at a1 a2
        simp only [if_pos a1, if_pos a2, Outcome.bind_ok]
      · exact ⟨Holds.mono hgrew hold.ck, Holds.mono hgrew hold.ci, Holds.mono hgrew hold.sk, Holds.mono hgrew hold.si⟩
    · intro hno
      rcases t3 with hv | hv | hv
      · rw [hv]
        simp only
        by_cases a1 : cd = finishedBytes aes k.clientKey k.clientIv cf
        · by_cases a2 : sd = finishedBytes aes k.serverKey k.serverIv sf
          · exact absurd ⟨⟨hl1, a1⟩, ⟨hl2, a2⟩, t2.1 hv⟩ hno
          · rw [if_pos a1, if_neg a2]; exact ⟨_, rfl⟩
        · rw [if_neg a1]; exact ⟨_, rfl⟩
      · rw [hv]; exact ⟨_, rfl⟩
      · rw [hv]; exact ⟨_, rfl⟩

/-- The keys of a session. -/
def sessionKeys (S : Sha) (ms : Bytes) (t : TlsTranscript) : KeyBytes :=
  let k := keysOf S ms t.certificateBinding.clientRandom.toList t.certificateBinding.serverRandom.toList
  ⟨k.clientKey, k.clientIv, k.serverKey, k.serverIv⟩

theorem builder_not_panic (env : TtEnv) (time : Nat) (s r : Bytes) : (verifierBuilder time s r).build env ≠ .panic := fun h => by
  rcases C42_build_panics_only_on_empty env _ h with h | h <;> cases h

theorem alloc_not_panic (S : Sha) (aes : AesFn) : ∃ p, Party.alloc S aes = .ok p := by
  obtain ⟨_, _, _, -, hp⟩ := alloc_ok S aes
  exact ⟨_, hp⟩

/-- The run after the end of the forwarding, in terms of the sockets. -/
theorem run_ended (S : Sha) (env : TtEnv) (aes : AesFn) (fill : Nat → Byte) (ms : Bytes) (es : List (Peer × IoEvent))
    (h : (forward es).result = some true) :
    verifierRun S env aes fill ms es = some (
      match (forward es).sent.firstRead with
      | none => .panic
      | some time => Party.alloc S aes >>= fun p =>
        verifierFinalize S env p (forward es).sent.taken (forward es).recv.taken time ms >>= fun (p, t) =>
          verifierChecks aes fill p t) := by
  have h1 := (C88_complete es h _ (.inl rfl)).1
  have h2 := (C88_complete es h _ (.inr rfl)).1
  unfold verifierRun
  simp only [h, h1, h2]
  cases (forward es).sent.firstRead <;> rfl

theorem run_result {S : Sha} {env : TtEnv} {aes : AesFn} {fill : Nat → Byte} {ms : Bytes} {es : List (Peer × IoEvent)}
    {o : Outcome ProxyError Committed} (h : verifierRun S env aes fill ms es = some o) :
    ((forward es).result = some false ∧ o = .err .forwarding) ∨ (forward es).result = some true := by
  unfold verifierRun at h
  cases hr : (forward es).result with
  | none => simp [hr] at h
  | some b =>
    cases b with
    | false => simp only [hr, Option.some.injEq] at h; exact .inl ⟨rfl, h.symm⟩
    | true => exact .inr rfl

/-! ## The properties -/

/-- **C89** If the verifier of the proxy mode accepts the connection, then both directions were forwarded to their end, the time
of the session is the time at which the first byte of the prover was read, the bytes on the sockets are a TLS connection under
the master secret (`Genuine`), and the keys that the proving phase goes on with are the keys of this connection. -/
theorem C89_accepted (S : Sha) (env : TtEnv) (aes : AesFn) (fill : Nat → Byte) (ms : Bytes) (es : List (Peer × IoEvent))
    (hsha : ∀ b, (env.sha256 b).length = 32) (hms : ms.length = 48) (c : Committed)
    (h : verifierRun S env aes fill ms es = some (.ok c)) :
    let f := forward es
    f.sent.given = f.sent.taken ∧ f.recv.given = f.recv.taken ∧ f.sent.ended = true ∧ f.recv.ended = true ∧
    f.sent.firstRead = some c.transcript.time ∧
    Genuine S env aes ms f.sent.taken f.recv.taken c.transcript.time c.transcript ∧
    HoldsKeys c.zk keyRefs (sessionKeys S ms c.transcript) := by
  intro f
  rcases run_result h with ⟨-, h'⟩ | hr
  · cases h'
  obtain ⟨-, a1, a2, -⟩ := C88_complete es hr _ (.inl rfl)
  obtain ⟨-, b1, b2, -⟩ := C88_complete es hr _ (.inr rfl)
  refine ⟨a1, b1, a2, b2, ?_⟩
  rw [run_ended S env aes fill ms es hr] at h
  show (forward es).sent.firstRead = _ ∧ _
  cases ht : (forward es).sent.firstRead with
  | none => rw [ht] at h; cases h
  | some time =>
    rw [ht] at h
    simp only [Option.some.injEq] at h
    cases hb : (verifierBuilder time (forward es).sent.taken (forward es).recv.taken).build env with
    | panic => exact absurd hb (builder_not_panic _ _ _ _)
    | err e =>
      obtain ⟨p, hp⟩ := alloc_not_panic S aes
      simp only [hp, verifierFinalize, hb, Outcome.bind_ok, Outcome.bind_err] at h
      cases h
    | ok t =>
      obtain ⟨v1, v2⟩ := verdict S env aes fill ms _ _ time hsha hms t hb
      by_cases hg : Genuine S env aes ms (forward es).sent.taken (forward es).recv.taken time t
      · obtain ⟨c', e1, e2, e3⟩ := v1 hg
        rw [h] at e1
        cases e1
        obtain ⟨-, -, -, -, -, -, -, -, -, -, htime⟩ := built_facts hb
        rw [e2, htime]
        exact ⟨rfl, hg, by rw [← e2] at e3 ⊢; exact e3⟩
      · obtain ⟨e, e1⟩ := v2 hg
        rw [h] at e1
        cases e1

/-- **C89** Conversely, the verifier accepts every such connection. -/
theorem C89_accepts (S : Sha) (env : TtEnv) (aes : AesFn) (fill : Nat → Byte) (ms : Bytes) (es : List (Peer × IoEvent))
    (hsha : ∀ b, (env.sha256 b).length = 32) (hms : ms.length = 48) (hr : (forward es).result = some true) (time : Nat)
    (ht : (forward es).sent.firstRead = some time) (t : TlsTranscript)
    (hg : Genuine S env aes ms (forward es).sent.taken (forward es).recv.taken time t) :
    ∃ c, verifierRun S env aes fill ms es = some (.ok c) ∧ c.transcript = t := by
  rw [run_ended S env aes fill ms es hr, ht]
  obtain ⟨c, e1, e2, -⟩ := (verdict S env aes fill ms _ _ time hsha hms t hg.built).1 hg
  exact ⟨c, by rw [← e1], e2⟩

/-- **C90** The verifier panics exactly if both directions were forwarded to their end and the prover sent nothing, whatever the
server sent; in all other cases it goes on, accepts or returns an error. -/
theorem C90_panics_iff_partial (S : Sha) (env : TtEnv) (aes : AesFn) (fill : Nat → Byte) (ms : Bytes) (es : List (Peer × IoEvent))
    (hsha : ∀ b, (env.sha256 b).length = 32) (hms : ms.length = 48) :
    verifierRun S env aes fill ms es = some .panic ↔ (forward es).result = some true ∧ (forward es).sent.taken = [] := by
  have htimed := (C88_faithful es).1.timed
  constructor
  · intro h
    rcases run_result h with ⟨-, h'⟩ | hr
    · cases h'
    refine ⟨hr, ?_⟩
    rw [run_ended S env aes fill ms es hr] at h
    cases ht : (forward es).sent.firstRead with
    | none => exact Classical.byContradiction fun hn => by rw [ht] at htimed; cases htimed.2 hn
    | some time =>
      rw [ht] at h
      simp only [Option.some.injEq] at h
      cases hb : (verifierBuilder time (forward es).sent.taken (forward es).recv.taken).build env with
      | panic => exact absurd hb (builder_not_panic _ _ _ _)
      | err e =>
        obtain ⟨p, hp⟩ := alloc_not_panic S aes
        simp only [hp, verifierFinalize, hb, Outcome.bind_ok, Outcome.bind_err] at h
        cases h
      | ok t =>
        obtain ⟨v1, v2⟩ := verdict S env aes fill ms _ _ time hsha hms t hb
        by_cases hg : Genuine S env aes ms (forward es).sent.taken (forward es).recv.taken time t
        · obtain ⟨c', e1, -⟩ := v1 hg
          rw [h] at e1
          cases e1
        · obtain ⟨e, e1⟩ := v2 hg
          rw [h] at e1
          cases e1
  · rintro ⟨hr, hn⟩
    rw [run_ended S env aes fill ms es hr]
    cases ht : (forward es).sent.firstRead with
    | none => rfl
    | some time => rw [ht] at htimed; exact absurd hn (htimed.1 rfl)

/-- **C91** The whole proxy mode: if the verifier accepts the connection and then the proof, then the bytes that it shows are the
decryptions, under the keys of the connection, of what went through its sockets; the certificate belongs to the connection and
was valid at its time. -/
theorem C91_revealed (S : Sha) (env : TtEnv) (aes : AesFn) (fill : Nat → Byte) (ms : Bytes) (es : List (Peer × IoEvent))
    (hsha : ∀ b, (env.sha256 b).length = 32) (hms : ms.length = 48) (c : Committed)
    (h : verifierRun S env aes fill ms es = some (.ok c))
    (hc : HashCircuits) (e : Bool) (certs : CertVerifier) (request : ProveRequest) (handshake : Option (ServerName × HandshakeData))
    (transcript : Option PartialTranscript) (hwf : ∀ t, transcript = some t → t.WF) (vm : ZkVm) (out : VerifierOutput)
    (hv : verifySession aes hc e certs c.zk keyRefs (viewOf c.transcript) request handshake transcript = .ok (vm, out)) :
    let f := forward es
    let data := sessionData aes (sessionKeys S ms c.transcript) (viewOf c.transcript)
    (∃ sent recv, RecordStream f.sent.taken sent ∧ RecordStream f.recv.taken recv ∧
      RecordsOfWire (protectedRecords sent) none c.transcript.sent ∧ RecordsOfWire (protectedRecords recv) none c.transcript.recv) ∧
    Genuine S env aes ms f.sent.taken f.recv.taken c.transcript.time c.transcript ∧
    (∀ t, out.transcript = some t →
      t.sent.length = data.sent.length ∧ t.received.length = data.received.length ∧
      (∀ x ∈ t.sentAuthed, t.sent[x]? = data.sent[x]?) ∧ (∀ x ∈ t.receivedAuthed, t.received[x]? = data.received[x]?)) ∧
    Pairwise2 (Commits hc data) request.hashes out.commitments ∧
    (∀ name, out.serverName = some name → ∃ cert : HandshakeData, handshake = some (name, cert) ∧
      f.sent.firstRead = some c.transcript.time ∧
      cert.verify certs c.transcript.time c.transcript.certificateBinding.serverEphemeralKey name = .ok ()) := by
  intro f data
  obtain ⟨-, -, -, -, ht, hg, hk⟩ := C89_accepted S env aes fill ms es hsha hms c h
  obtain ⟨sent, recv, fl, h1, h2, -, -, -, h6, h7, -⟩ := built_facts hg.built
  have hw : WellFormed (viewOf c.transcript) := by
    intro r hr _
    rcases hr with hr | hr
    · exact (wire_records h6).2 r hr
    · exact (wire_records h7).2 r hr
  obtain ⟨-, a2, a3, a4, a5⟩ := C33_output aes hc e certs c.zk keyRefs (sessionKeys S ms c.transcript) (viewOf c.transcript)
    request handshake transcript hk hw hwf vm out hv
  refine ⟨⟨sent, recv, h1, h2, h6, h7⟩, hg, fun t hto => ?_, a5, fun name hname => ?_⟩
  · obtain ⟨-, b1, b2, -, b3, b4⟩ := a2 t hto
    exact ⟨b1, b2, b3, b4⟩
  · rw [a3] at hname
    cases hh : handshake with
    | none => rw [hh] at hname; cases hname
    | some x =>
      obtain ⟨n, cert⟩ := x
      rw [hh] at hname
      cases hname
      obtain ⟨key, k1, k2⟩ := a4 _ _ hh
      cases k1
      exact ⟨cert, rfl, ht, k2⟩

/-! ## What is not checked -/

theorem clear_append (pre l : List OpaqueMessage) (h : ∃ c ∈ pre, c.typ = .changeCipherSpec) :
    clearHandshake (pre ++ l) = clearHandshake pre ∧
    protectedRecords (pre ++ l) = protectedRecords pre ++ l := by
  unfold clearHandshake protectedRecords
  induction pre with
  | nil => obtain ⟨c, hc, -⟩ := h; cases hc
  | cons a pre ih =>
    by_cases ha : a.typ = .changeCipherSpec
    · simp [ha]
    · obtain ⟨c, hc, hct⟩ := h
      have hc' : c ∈ pre := by
        rcases List.mem_cons.1 hc with rfl | hc
        · exact absurd hct ha
        · exact hc
      obtain ⟨i1, i2⟩ := ih ⟨c, hc', hct⟩
      simp only [List.cons_append, List.takeWhile_cons, List.dropWhile_cons, ha, ne_eq, not_false_eq_true, decide_true, if_true]
      refine ⟨?_, i2⟩
      by_cases hh : a.typ = .handshake
      · simp only [List.filter_cons, hh, decide_true, if_true, List.flatMap_cons, i1]
      · simp only [List.filter_cons, hh, decide_false, Bool.false_eq_true, if_false, i1]

theorem appData_set (aes : AesFn) (key iv : Bytes) (rs : List Record) (j : Nat) (r : Record) (tag : Option Bytes)
    (h : rs[j]? = some r) : appData aes key iv (rs.set j { r with tag }) = appData aes key iv rs := by
  induction rs generalizing j with
  | nil => rfl
  | cons a rs ih =>
    cases j with
    | zero =>
      simp only [List.getElem?_cons_zero, Option.some.injEq] at h
      subst h
      simp only [List.set_cons_zero, appData, List.filter_cons]
      split <;> rfl
    | succ j =>
      have := ih j (by simpa using h)
      simp only [List.set_cons_succ, appData, List.filter_cons] at this ⊢
      split
      · simp only [List.flatMap_cons, this]
      · exact this

/-- **C89** The tags of the records that the prover sent are not checked, in contrast to those it received: in an accepted
connection, the tag of any application data record that was sent can be replaced by any other sixteen bytes.  A TLS server
rejects such a record, but the verifier accepts the connection, with the same application data. -/
theorem C89_sent_tags_unchecked (S : Sha) (env : TtEnv) (aes : AesFn) (ms : Bytes) (time : Nat)
    (pre post : List OpaqueMessage) (m : OpaqueMessage) (body tag tag' recvBytes : Bytes) (t : TlsTranscript)
    (hlegal : RecordStream ((pre ++ m :: post).flatMap frameBytes) (pre ++ m :: post))
    (hg : Genuine S env aes ms ((pre ++ m :: post).flatMap frameBytes) recvBytes time t)
    (hpre : ∃ c ∈ pre, c.typ = .changeCipherSpec) (hm : m.typ = .applicationData)
    (hp : m.payload = body ++ tag) (hl : tag.length = 16) (hl' : tag'.length = 16) :
    ∃ t', Genuine S env aes ms ((pre ++ { m with payload := body ++ tag' } :: post).flatMap frameBytes) recvBytes time t' ∧
      t'.recv = t.recv ∧ t'.certificateBinding = t.certificateBinding ∧
      sessionData aes (sessionKeys S ms t) (viewOf t') = sessionData aes (sessionKeys S ms t) (viewOf t) := by
  obtain ⟨hb, ⟨sent, recv, f, cf, sf, g1, g2, g3, g4, g5, g6, g7⟩, g8⟩ := hg
  obtain rfl := recordStream_unique hlegal g1
  obtain ⟨sent', recv', f', v, d, b1, b2, b3, b4, b5, b6, b7, b8, b9, b10, b11, b12, b13, b14, b15⟩ :=
    (build_raw_iff env (verifierBuilder time _ recvBytes) _ recvBytes rfl rfl t).1 hb
  obtain rfl := recordStream_unique hlegal b1
  obtain rfl := recordStream_unique g2 b2
  obtain rfl := handshake_unique g3 b3
  obtain ⟨_, hw, b11⟩ := b11
  cases hw
  obtain ⟨c1, c2⟩ := clear_append pre (m :: post) hpre
  obtain ⟨d1, d2⟩ := clear_append pre ({ m with payload := body ++ tag' } :: post) hpre
  generalize hm' : ({ m with payload := body ++ tag' } : OpaqueMessage) = m' at d1 d2 ⊢
  have hmt : m'.typ = m.typ ∧ m'.version = m.version ∧ m'.payload.length = m.payload.length := by
    subst hm'
    exact ⟨rfl, rfl, by simp [hp, hl, hl']⟩
  rw [c2] at b11
  generalize hq : protectedRecords pre = q at b11 d2
  -- the record
  have hj : q.length < t.sent.length := by rw [b11.len]; simp
  obtain ⟨r, hr⟩ : ∃ r, t.sent[q.length]? = some r := ⟨_, List.getElem?_eq_getElem hj⟩
  have henc := b11.enc q.length m r (by simp) hr
  obtain ⟨rtag, e1, e2, e3⟩ := henc.tag
  have hbody : body = r.nonce ++ r.ciphertext := by
    rw [hp] at e3
    exact (List.append_inj' e3 (by omega)).1
  have hstream : RecordStream ((pre ++ m' :: post).flatMap frameBytes) (pre ++ m' :: post) := by
    refine ⟨rfl, fun x hx => ?_⟩
    rcases List.mem_append.1 hx with hx | hx
    · exact hlegal.legal x (by simp [hx])
    rcases List.mem_cons.1 hx with rfl | hx
    · obtain ⟨z1, z2, z3⟩ := hlegal.legal m (by simp)
      rw [hmt.1, hmt.2.1, hmt.2.2]
      exact ⟨z1, z2, z3⟩
    · exact hlegal.legal x (by simp [hx])
  have hhs : IsHandshake (pre ++ m' :: post) recv f :=
    ⟨by rw [d1, ← c1]; exact g3.sent_eq, g3.recv_eq, g3.valid⟩
  have hrec : RecordsOfWire (q ++ m' :: post) none (t.sent.set q.length { r with tag := some tag' }) := by
    refine ⟨?_, by rw [List.length_set, b11.len]; simp, ?_, ?_, ?_, fun a ha => by cases ha⟩
    · obtain ⟨x, rest, e, hx⟩ := b11.first
      cases q with
      | nil =>
        cases e
        rw [hm] at hx
        cases hx
      | cons y q => cases e; exact ⟨_, _, rfl, hx⟩
    · intro i x y hx hy
      by_cases hi : i = q.length
      · subst hi
        simp only [List.getElem?_append_right (Nat.le_refl _), Nat.sub_self, List.getElem?_cons_zero, Option.some.injEq] at hx
        rw [List.getElem?_set_self hj] at hy
        cases hx
        cases hy
        refine ⟨henc.seq, ?_, henc.nonce, tag', rfl, hl', ?_⟩
        · rw [hmt.1]; exact henc.typ
        · rw [← hm', ← hbody]
      · rw [List.getElem?_set_ne (Ne.symm hi)] at hy
        refine b11.enc i x y ?_ hy
        rcases Nat.lt_or_ge i q.length with hlt | hge
        · rw [List.getElem?_append_left hlt] at hx ⊢
          exact hx
        · rw [List.getElem?_append_right hge] at hx ⊢
          obtain ⟨n, hn⟩ : ∃ n, i - q.length = n + 1 := ⟨i - q.length - 1, by omega⟩
          rw [hn] at hx ⊢
          exact hx
    · intro x hx hne
      rcases List.mem_or_eq_of_mem_set hx with hx | rfl
      · exact b11.other x hx hne
      · exact b11.other r (List.mem_of_getElem? hr) hne
    · intro _ x hx
      rcases List.mem_or_eq_of_mem_set hx with hx | rfl
      · exact b11.unknown rfl x hx
      · exact b11.unknown rfl r (List.mem_of_getElem? hr)
  have hnot0 : q.length ≠ 0 := by
    intro h0
    obtain ⟨x, rest, e, hx⟩ := b11.first
    cases q with
    | nil =>
      cases e
      rw [hm] at hx
      cases hx
    | cons y q => cases h0
  let t' : TlsTranscript := { t with sent := t.sent.set q.length { r with tag := some tag' } }
  refine ⟨t', ⟨?_, ⟨pre ++ m' :: post, recv, f, cf, sf, hstream, g2, hhs, ?_, g5, g6, g7⟩, g8⟩, rfl, rfl, ?_⟩
  · refine (build_raw_iff env (verifierBuilder time _ recvBytes) _ recvBytes rfl rfl t').2
      ⟨pre ++ m' :: post, recv, f, v, d, hstream, g2, hhs, b4, b5, b6, b7, b8, b9, b10, ⟨_, rfl, ?_⟩, b12, b13, b14, b15⟩
    rw [d2]
    exact hrec
  · show (t.sent.set q.length _).head? = _
    cases hs : t.sent with
    | nil => rw [hs] at hj; simp at hj
    | cons a rest =>
      obtain ⟨n, hn⟩ : ∃ n, q.length = n + 1 := ⟨q.length - 1, by omega⟩
      rw [hn, List.set_cons_succ]
      rw [hs] at g4
      exact g4
  · show (⟨_, _⟩ : Transcript) = ⟨_, _⟩
    rw [show (viewOf t').sent = t.sent.set q.length { r with tag := some tag' } from rfl, appData_set _ _ _ _ _ _ _ hr]
    rfl

/-! ## The prover of the same session -/

/-- The record without what only the prover knows. -/
def erased (r : Record) : Record := { r with plaintext := none }

/-- The records with their parts of the application data. -/
def fillPlain (a : Bytes) : Nat → List Record → List Record
  | _, [] => []
  | n, r :: rs =>
    if r.typ = .applicationData then
      { r with plaintext := some ((a.drop n).take r.ciphertext.length) } :: fillPlain a (n + r.ciphertext.length) rs
    else r :: fillPlain a n rs

theorem fillPlain_erased (a : Bytes) (n : Nat) (rs : List Record) (h : ∀ r ∈ rs, r.plaintext = none) :
    (fillPlain a n rs).map erased = rs := by
  induction rs generalizing n with
  | nil => rfl
  | cons r rs ih =>
    have hr : erased r = r := by
      have := h r (by simp)
      cases r
      simp only [erased] at this ⊢
      rw [this]
    unfold fillPlain
    split
    · rw [List.map_cons, ih _ (fun x hx => h x (by simp [hx]))]
      congr 1
    · rw [List.map_cons, ih _ (fun x hx => h x (by simp [hx])), hr]

theorem appLength_cons (r : Record) (rs : List Record) :
    appLength (r :: rs) = (if r.typ = .applicationData then r.ciphertext.length else 0) + appLength rs := by
  unfold appLength
  by_cases h : r.typ = .applicationData <;> simp [h]

theorem appLength_erased (rs : List Record) : appLength (rs.map erased) = appLength rs := by
  induction rs with
  | nil => rfl
  | cons r rs ih => rw [List.map_cons, appLength_cons, appLength_cons, ih]; rfl

theorem fillPlain_plain (a : Bytes) (n : Nat) (rs : List Record) (i : Nat) (r : Record) (h : (fillPlain a n rs)[i]? = some r)
    (ha : r.typ = .applicationData) :
    r.plaintext = some ((a.drop (n + appLength ((fillPlain a n rs).take i))).take r.ciphertext.length) := by
  induction rs generalizing n i with
  | nil => simp [fillPlain] at h
  | cons x rs ih =>
    unfold fillPlain at h ⊢
    by_cases hx : x.typ = .applicationData
    · rw [if_pos hx] at h ⊢
      cases i with
      | zero =>
        simp only [List.getElem?_cons_zero, Option.some.injEq] at h
        subst h
        simp [appLength]
      | succ i =>
        rw [ih _ i h, List.take_succ_cons, appLength_cons]
        simp only [hx, if_true, Nat.add_assoc]
    · rw [if_neg hx] at h ⊢
      cases i with
      | zero =>
        simp only [List.getElem?_cons_zero, Option.some.injEq] at h
        subst h
        exact absurd ha hx
      | succ i =>
        rw [ih _ i h, List.take_succ_cons, appLength_cons]
        simp only [hx, if_false, Nat.zero_add]

theorem fillPlain_other (a : Bytes) (n : Nat) (rs : List Record) (h : ∀ r ∈ rs, r.plaintext = none) :
    ∀ r ∈ fillPlain a n rs, r.typ ≠ .applicationData → r.plaintext = none := by
  induction rs generalizing n with
  | nil => intro r hr; cases hr
  | cons x rs ih =>
    intro r hr hne
    unfold fillPlain at hr
    split at hr
    · rename_i hx
      rcases List.mem_cons.1 hr with rfl | hr
      · exact absurd hx hne
      · exact ih _ (fun y hy => h y (by simp [hy])) r hr hne
    · rcases List.mem_cons.1 hr with rfl | hr
      · exact h _ (by simp)
      · exact ih _ (fun y hy => h y (by simp [hy])) r hr hne

theorem records_known {w : List OpaqueMessage} {rs : List Record} (h : RecordsOfWire w none rs) (a : Bytes)
    (ha : appLength rs ≤ a.length) : RecordsOfWire w (some a) (fillPlain a 0 rs) := by
  have he := fillPlain_erased a 0 rs (h.unknown rfl)
  have hlen : (fillPlain a 0 rs).length = rs.length := by rw [← congrArg List.length he, List.length_map]
  refine ⟨h.first, by rw [hlen, h.len], ?_, fillPlain_other a 0 rs (h.unknown rfl), fun hn => (by cases hn), ?_⟩
  · intro i m r hm hr
    have : rs[i]? = some (erased r) := by rw [← he, List.getElem?_map, hr]; rfl
    obtain ⟨e1, e2, e3, e4⟩ := h.enc i m _ hm this
    exact ⟨e1, e2, e3, e4⟩
  · intro b hb
    cases hb
    refine ⟨by rw [← appLength_erased, he]; exact ha, fun i r hr hat => ?_⟩
    have := fillPlain_plain a 0 rs i r hr hat
    simpa using this

/-- **C92** The two parties of an accepted session agree: a prover that holds the master secret, the same bytes, and enough
application data, finishes without an error; its records are those of the verifier with the application data filled in, its
handshake data is the same, and its machine holds the same keys. -/
theorem C92_prover_agrees (S : Sha) (env : TtEnv) (aes : AesFn) (fill fill' : Nat → Byte) (ms : Bytes)
    (es : List (Peer × IoEvent)) (hsha : ∀ b, (env.sha256 b).length = 32) (hms : ms.length = 48) (c : Committed)
    (h : verifierRun S env aes fill ms es = some (.ok c)) (time : Nat) (traffic : TlsBytes)
    (h1 : traffic.tlsSent = (forward es).sent.taken) (h2 : traffic.tlsRecv = (forward es).recv.taken)
    (h3 : appLength c.transcript.sent ≤ traffic.appSent.length) (h4 : appLength c.transcript.recv ≤ traffic.appRecv.length) :
    ∃ p t zk, (Party.alloc S aes >>= fun p => proverFinalize S env p ms time traffic) = .ok (p, t) ∧
      t.sent.map erased = c.transcript.sent ∧ t.recv.map erased = c.transcript.recv ∧
      t.certificateBinding = c.transcript.certificateBinding ∧ t.version = c.transcript.version ∧
      t.serverCertChain = c.transcript.serverCertChain ∧ t.serverSignature = c.transcript.serverSignature ∧ t.time = time ∧
      keyMemory fill' p.vm.execute p.refs = some zk ∧ HoldsKeys zk keyRefs (sessionKeys S ms c.transcript) := by
  obtain ⟨-, -, -, -, -, ⟨hb, ⟨_, _, _, cf, sf, g1, g2, g3, g4, g5, g6, g7⟩, g8⟩, -⟩ := C89_accepted S env aes fill ms es hsha hms c h
  obtain ⟨sent, recv, f, v, d, b1, b2, b3, b4, b5, b6, b7, b8, b9, b10, b11, b12, b13, b14, b15⟩ :=
    (build_raw_iff env (verifierBuilder _ _ _) _ _ rfl rfl c.transcript).1 hb
  obtain rfl := recordStream_unique b1 g1
  obtain rfl := recordStream_unique b2 g2
  obtain rfl := handshake_unique b3 g3
  obtain ⟨_, hw, b11⟩ := b11
  cases hw
  obtain ⟨_, hw, b12⟩ := b12
  cases hw
  let t : TlsTranscript := { c.transcript with
    time := time
    sent := fillPlain traffic.appSent 0 c.transcript.sent
    recv := fillPlain traffic.appRecv 0 c.transcript.recv }
  have hbuild : (proverBuilder time traffic).build env = .ok t := by
    refine (build_raw_iff env (proverBuilder time traffic) _ _ rfl rfl t).2
      ⟨sent, recv, f, v, d, by rw [h1]; exact b1, by rw [h2]; exact b2, b3, b4, b5, rfl, b7, b8, b9, b10,
        ⟨_, rfl, records_known b11 _ h3⟩, ⟨_, rfl, records_known b12 _ h4⟩, b13, b14, b15⟩
  have hes := fillPlain_erased traffic.appSent 0 c.transcript.sent (b11.unknown rfl)
  have her := fillPlain_erased traffic.appRecv 0 c.transcript.recv (b12.unknown rfl)
  have hd : ∀ (l l' : List Record) (r : Record), l.map erased = l' → l'.head? = some r → ∃ r', l.head? = some r' ∧ erased r' = r := by
    intro l l' r hl hr
    subst hl
    cases l with
    | nil => cases hr
    | cons x l => exact ⟨x, rfl, Option.some.inj hr⟩
  obtain ⟨cf', e1, e1'⟩ := hd _ _ _ hes g4
  obtain ⟨sf', e2, e2'⟩ := hd _ _ _ her g5
  have hmem : ∀ (l : List Record) (r : Record), l.head? = some r → r ∈ l := fun l r hr => List.mem_of_head? hr
  have n1 : cf'.nonce.length = 8 := by
    rw [show cf'.nonce = cf.nonce by rw [← e1']; rfl]
    exact (wire_records b11).2 cf (hmem _ _ g4)
  have n2 : sf'.nonce.length = 8 := by
    rw [show sf'.nonce = sf.nonce by rw [← e2']; rfl]
    exact (wire_records b12).2 sf (hmem _ _ g5)
  have hcd : (S.clientVerifyData ms (env.sha256 (messageBytes f.clientFinished))).length = 12 := prf_length _ _ _ _ _
  obtain ⟨p, hp, -, hgood⟩ := compute_spec S env aes t ms (env.sha256 (messageBytes f.clientFinished)) cf' sf' hms b13 (hsha _)
    (env.sha256 (messageBytes (f.serverFinished (S.clientVerifyData ms (env.sha256 (messageBytes f.clientFinished)))))) (by
      unfold TlsTranscript.sfHashWith
      rw [show t.sfHash = some (digestsOf env f).2.2 from b15]
      simp only [sfHash_flights env f _ hcd, Option.map_some]) (hsha _) e1 e2 n1 n2
  have l1 : cf'.ciphertext.length = 16 := by
    rw [show cf'.ciphertext = cf.ciphertext by rw [← e1']; rfl]
    exact ((encryptsFinished_iff _ _ _ _ _ hcd).1 g6).1
  have l2 : sf'.ciphertext.length = 16 := by
    rw [show sf'.ciphertext = sf.ciphertext by rw [← e2']; rfl]
    exact ((encryptsFinished_iff _ _ _ _ _ (prf_length _ _ _ _ _)).1 g7).1
  obtain ⟨p', hp', hkm, -, -⟩ := hgood l1 l2
  obtain ⟨k1, k2, k3, k4⟩ := keysOf_length S ms t.certificateBinding.clientRandom.toList t.certificateBinding.serverRandom.toList
  refine ⟨p', t, _, ?_, hes, her, rfl, rfl, rfl, rfl, rfl, hkm fill', ?_⟩
  · rw [hp, Outcome.bind_ok]
    unfold proverFinalize
    rw [hbuild]
    simp only [hms, ne_eq, not_true_eq_false, if_false, hp', Outcome.bind_ok]
  · exact (holds_keys fill' _ _ _ _ _ k1 k2 k3 k4 (by simp)).1

/-! ## A concrete session -/

namespace Example

/-- A hash of 32 bytes. -/
def hash (b : Bytes) : Bytes := List.ofFn fun i : Fin 32 => b.foldl (fun acc x => acc * 3 + x + i.val.toUInt8) 7

def env : TtEnv := { TtExample.env with sha256 := hash }

def secret : Bytes := List.replicate 48 9

def keys : SecretKeys := keysOf toySha secret (List.replicate 32 0xaa) (List.replicate 32 0xbb)

def clientData : Bytes := toySha.clientVerifyData secret (hash (messageBytes (TtExample.flights []).clientFinished))

def serverData : Bytes := toySha.serverVerifyData secret (hash (messageBytes ((TtExample.flights []).serverFinished clientData)))

/-- The first block of an encryption. -/
def encBlock (key iv nonce text : Bytes) : Bytes := xorBytes text (exAes key (iv ++ (nonce ++ beBytes 4 2))).toList

/-- A record with the tag of the server. -/
def tagged (seq : Nat) (typ : ContentType) (nonce text : Bytes) : OpaqueMessage :=
  let c := encBlock keys.serverKey keys.serverIv nonce text
  ⟨typ, .tls12, nonce ++ c ++ recordTag exAes keys.serverKey keys.serverIv (exAes keys.serverKey (List.replicate 16 0)).toList
    .v12 ⟨seq, typ, none, nonce, c, none⟩⟩

/-- The records of the client, whose tags are zero. -/
def untagged (typ : ContentType) (nonce text : Bytes) : OpaqueMessage :=
  ⟨typ, .tls12, nonce ++ encBlock keys.clientKey keys.clientIv nonce text ++ List.replicate 16 0⟩

def sent : List OpaqueMessage :=
  ((TtExample.flights []).client.map fun m => TtExample.hsRecord (hsBytes m)) ++
    [⟨.changeCipherSpec, .tls12, [1]⟩, untagged .handshake (List.replicate 8 1) ([0x14, 0, 0, 12] ++ clientData),
      untagged .applicationData (List.replicate 8 2) [71, 69, 84]]

def recv : List OpaqueMessage :=
  ((TtExample.flights []).server.map fun m => TtExample.hsRecord (hsBytes m)) ++
    [⟨.changeCipherSpec, .tls12, [1]⟩, tagged 0 .handshake (List.replicate 8 3) ([0x14, 0, 0, 12] ++ serverData),
      tagged 1 .applicationData (List.replicate 8 4) [50, 48, 48]]

def history (s r : List OpaqueMessage) : List (Peer × IoEvent) :=
  wellBehaved .prover 1700000000 [s.flatMap frameBytes] ++ wellBehaved .server 1700000001 (r.map frameBytes)

def accepted : Option (Outcome ProxyError Committed) → Bool
  | some (.ok c) => decide (c.transcript.time = 1700000000 ∧ c.transcript.sent.length = 2 ∧ c.transcript.recv.length = 2)
  | _ => false

/-- The session is accepted, even with tags of zero in the records of the client (C89, C92). -/
example : accepted (verifierRun toySha env exAes (fun _ => 0) secret (history sent recv)) = true := by decide +kernel

/-- It is not accepted under another master secret, nor with another tag in a record of the server, nor with something else
in place of the finished message of the client. -/
example : accepted (verifierRun toySha env exAes (fun _ => 0) (List.replicate 48 8) (history sent recv)) = false ∧
    accepted (verifierRun toySha env exAes (fun _ => 0) secret (history sent (recv.map fun m =>
      if m.typ = .applicationData then { m with payload := m.payload.dropLast ++ [0] } else m))) = false ∧
    accepted (verifierRun toySha env exAes (fun _ => 0) secret (history (sent.map fun m =>
      if m.payload.take 8 = List.replicate 8 1 then untagged .handshake (List.replicate 8 1) (List.replicate 16 0) else m)
      recv)) = false := by decide +kernel

/-- The hash is as the theorems ask. -/
example (b : Bytes) : (env.sha256 b).length = 32 := by simp [env, hash]

/-- A prover that sends nothing (C90). -/
example : (forward (history [] recv)).result = some true ∧ (forward (history [] recv)).sent.taken = [] := by decide +kernel

end Example

end Tlsn.Proxy
