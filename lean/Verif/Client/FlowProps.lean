import Verif.Client.Flow
import Verif.Tls.DeframeLemmas
import Verif.Sdk.MachineProps

/-! # The handshake keeps the flow of data -/

namespace Tlsn.Client

variable {F : Flux} {α β : Type} {cfg : ClientCfg}

/-! ## The handlers -/

theorem neutral_sessionId (r : Reply Bytes) : Neutral (.sessionId r) := ⟨rfl, fun _ => rfl, rfl, rfl, rfl, by simp⟩
theorem neutral_random (r : Reply Bytes) : Neutral (.random r) := ⟨rfl, fun _ => rfl, rfl, rfl, rfl, by simp⟩
theorem neutral_keyShare (r : Reply KeyShareEntry) : Neutral (.keyShare r) := ⟨rfl, fun _ => rfl, rfl, rfl, rfl, by simp⟩
theorem neutral_sign (s : UInt16) (m : Bytes) (r : Reply Bytes) : Neutral (.sign s m r) := ⟨rfl, fun _ => rfl, rfl, rfl, rfl, by simp⟩
theorem neutral_now (n : Nat) : Neutral (.now n) := ⟨rfl, fun _ => rfl, rfl, rfl, rfl, by simp⟩
theorem neutral_prepare (h : HandshakeData) (r : Reply Unit) : Neutral (.prepare h r) := ⟨rfl, fun _ => rfl, rfl, rfl, rfl, by simp⟩
theorem neutral_clientVd (h : Bytes) (r : Reply Bytes) : Neutral (.clientVd h r) := ⟨rfl, fun _ => rfl, rfl, rfl, rfl, by simp⟩
theorem neutral_serverVd (h : Bytes) (r : Reply Bytes) : Neutral (.serverVd h r) := ⟨rfl, fun _ => rfl, rfl, rfl, rfl, by simp⟩
theorem neutral_flush (r : Reply Unit) : Neutral (.flush r) := ⟨rfl, fun _ => rfl, rfl, rfl, rfl, by simp⟩
theorem neutral_close (r : Reply Unit) : Neutral (.close r) := ⟨rfl, fun _ => rfl, rfl, rfl, rfl, by simp⟩
theorem neutral_handle (m : MessagePayload) : Neutral (.handle m) := ⟨rfl, fun _ => rfl, rfl, rfl, rfl, by simp⟩
theorem neutral_enable (b : Bool) : Neutral (.enable b) := ⟨rfl, fun _ => rfl, rfl, rfl, rfl, by simp⟩

theorem keep_start (W : World) : Keep F (startHandshake cfg W) :=
  Keep.bind (Keep.ask neutral_sessionId) fun _ => Keep.bind (Keep.ask neutral_random) fun _ =>
  Keep.bind (keep_clear W _ _ rfl) fun _ => Keep.pure

theorem keep_alpn (W : World) (hf : FragOk F.frag) (p : Option Bytes) : Keep F (processAlpn cfg W p) := by
  refine Keep.bind (Keep.modify fun _ => ⟨rfl, rfl, rfl, rfl, rfl, rfl, rfl⟩) fun _ => ?_
  split
  · split
    · exact Keep.pure
    · exact keep_illegal W hf _
  · exact Keep.pure

theorem keep_completeHello (x : Ctx) (h : ServerHello) : Keep F (completeServerHello x h) := by
  unfold completeServerHello
  simp only
  split
  · split
    · exact Keep.fail
    · exact Keep.pure
  · exact Keep.pure

theorem keep_serverHello (W : World) (hf : FragOk F.frag) (s : HelloCtx) (m : MessagePayload) :
    Keep F (handleServerHello cfg W s m) := by
  unfold handleServerHello
  split
  · split
    · exact keep_abort W hf _ _
    · split
      · exact keep_illegal W hf _
      · split
        · exact keep_abort W hf _ _
        · split
          · exact keep_abort W hf _ _
          · refine Keep.bind (Keep.modify fun _ => ⟨rfl, rfl, rfl, rfl, rfl, rfl, rfl⟩) fun _ =>
              Keep.bind (keep_alpn W hf _) fun _ => ?_
            split
            · exact keep_abort W hf _ _
            · split
              · exact keep_abort W hf _ _
              · exact Keep.bind (Keep.modify fun _ => ⟨rfl, rfl, rfl, rfl, rfl, rfl, rfl⟩) fun _ => keep_completeHello _ _
  · exact Keep.fail

theorem keep_certificate (x : Ctx) (b : Bool) (scts : Option (List Bytes)) (m : MessagePayload) :
    Keep F (handleCertificate x b scts m) := by
  unfold handleCertificate
  split
  · simp only
    split
    · exact Keep.pure
    · exact Keep.pure
  · exact Keep.fail

theorem keep_serverKx (W : World) (hf : FragOk F.frag) (x : Ctx) (cert : CertDetails) (m : MessagePayload) :
    Keep F (handleServerKx W x cert m) := by
  unfold handleServerKx
  split
  · split
    · exact keep_abort W hf _ _
    · exact Keep.pure
  · exact Keep.fail

theorem keep_statusOrKx (W : World) (hf : FragOk F.frag) (x : Ctx) (scts : Option (List Bytes)) (chain : List Bytes)
    (m : MessagePayload) : Keep F (handleStatusOrKx W x scts chain m) := by
  unfold handleStatusOrKx
  split
  · exact keep_serverKx W hf _ _ _
  · exact Keep.pure
  · exact Keep.fail

theorem keep_emit (W : World) (t : HandshakeHash) (m : MessagePayload) (hm : headerVersion m = .tls12) : Keep F (emit W t m) :=
  Keep.bind (keep_clear W _ _ hm.symm) fun _ => Keep.pure

theorem keep_verifyServer (W : World) (hf : FragOk F.frag) (x : Ctx) (cert : CertDetails) (kx : KxDetails) :
    Keep F (verifyServer cfg W x cert kx) := by
  unfold verifyServer
  split
  · exact Keep.fail
  · refine Keep.bind (Keep.get fun _ => Keep.bind (Keep.note (neutral_now _)) fun _ => Keep.pure) fun _ => ?_
    split
    · exact keep_abort W hf _ _
    · split
      · exact Keep.fail
      · split
        · exact keep_abort W hf _ _
        · exact Keep.pure

theorem keep_emitCertificate (W : World) (auth : Option ClientAuth) (t : HandshakeHash) : Keep F (emitCertificate W auth t) := by
  unfold emitCertificate
  split
  · exact Keep.pure
  · exact keep_emit W _ _ rfl
  · exact keep_emit W _ _ rfl

theorem keep_emitCertVerify (W : World) (auth : Option ClientAuth) (t : HandshakeHash) : Keep F (emitCertVerify W auth t) := by
  unfold emitCertVerify
  split
  · split
    · exact Keep.fail
    · exact Keep.bind (Keep.ask fun _ => neutral_sign _ _ _) fun _ => keep_emit W _ _ rfl
  · exact Keep.pure

theorem keep_serverDone (W : World) (hf : FragOk F.frag) (x : Ctx) (cert : CertDetails) (kx : KxDetails) (auth : Option ClientAuth)
    (m : MessagePayload) : Keep F (handleServerDone cfg W x cert kx auth m) := by
  unfold handleServerDone
  split
  · refine Keep.bind (keep_aligned W hf) fun _ => Keep.bind (keep_verifyServer W hf _ _ _) fun _ =>
      Keep.bind (keep_emitCertificate W _ _) fun _ => ?_
    split
    · exact keep_abort W hf _ _
    · refine Keep.bind (Keep.ask fun _ => neutral_keyShare _) fun _ => ?_
      split
      · exact Keep.fail
      · exact Keep.bind (keep_emit W _ _ rfl) fun _ => Keep.bind (keep_emitCertVerify W _ _) fun _ =>
          Keep.bind (keep_clear W _ _ rfl) fun _ => Keep.bind (Keep.ask fun _ => neutral_prepare _ _) fun _ =>
          Keep.bind (Keep.modify fun _ => ⟨rfl, rfl, rfl, rfl, rfl, rfl, rfl⟩) fun _ =>
          Keep.bind (Keep.ask fun _ => neutral_clientVd _ _) fun _ =>
          Keep.bind (keep_protect W hf _ _ (by simp [finishedMsg, MessagePayload.contentType])) fun _ => Keep.pure
  · exact Keep.fail

theorem keep_doneOrReq (W : World) (hf : FragOk F.frag) (x : Ctx) (cert : CertDetails) (kx : KxDetails) (m : MessagePayload) :
    Keep F (handleDoneOrReq cfg W x cert kx m) := by
  unfold handleDoneOrReq
  split
  · exact Keep.pure
  · exact keep_serverDone W hf _ _ _ _ _

theorem keep_ccs (W : World) (hf : FragOk F.frag) (t : HandshakeHash) (m : MessagePayload) : Keep F (handleCcs W t m) := by
  unfold handleCcs
  split
  · exact Keep.bind (keep_aligned W hf) fun _ => Keep.bind (Keep.modify fun _ => ⟨rfl, rfl, rfl, rfl, rfl, rfl, rfl⟩) fun _ => Keep.pure
  · exact Keep.fail

theorem keep_finished (W : World) (hf : FragOk F.frag) (t : HandshakeHash) (m : MessagePayload) : Keep F (handleFinished W t m) := by
  unfold handleFinished
  split
  · refine Keep.bind (keep_aligned W hf) fun _ => Keep.bind (Keep.ask fun _ => neutral_serverVd _ _) fun _ => ?_
    split
    · exact Keep.bind (keep_startTraffic W hf) fun _ => Keep.pure
    · exact keep_abort W hf _ _
  · exact Keep.fail

/-- Messages other than application data. -/
theorem keep_handle (W : World) (hf : FragOk F.frag) (s : HState) (m : MessagePayload) (hm : ∀ p, m ≠ .applicationData p) :
    Keep F (handle cfg W s m) := by
  cases s with
  | initial => exact Keep.panic
  | serverHello h => exact keep_serverHello W hf h m
  | certificate x b scts => exact keep_certificate x b scts m
  | statusOrKx x scts chain => exact keep_statusOrKx W hf x scts chain m
  | serverKx x cert => exact keep_serverKx W hf x cert m
  | doneOrReq x cert kx => exact keep_doneOrReq W hf x cert kx m
  | done x cert kx auth => exact keep_serverDone W hf x cert kx auth m
  | ccs t => exact keep_ccs W hf t m
  | finished t => exact keep_finished W hf t m
  | traffic =>
    show Keep F (handleTraffic m)
    unfold handleTraffic
    split
    · rename_i p
      exact absurd rfl (hm p)
    · exact Keep.fail

/-- Nothing is in flight after a message. -/
def Flux.rest (F : Flux) : Flux := { F with inflight := [] }

theorem Flow.forget {c : Common} (h : Flow F false c) : Flow F.rest false c :=
  ⟨h.frag, h.received, h.chunks, h.wire, h.sent, h.small, h.recs, h.data, h.closing, h.closed, h.limit, h.tidy⟩

/-- `f` deals with the application data that is in flight. -/
def Done (F : Flux) (f : M Common α) : Prop := Run (Flow F true) f (Flow F.rest true) (Flow F.rest false)

theorem Keep.done {f : M Common α} (h : Keep F f) (hi : F.inflight = []) : Done F f := by
  have : F.rest = F := by cases F; simp only at hi; subst hi; rfl
  unfold Done
  rw [this]
  exact h

theorem done_fail {e : CErr} : Done F (M.fail e : M Common α) := fun _ hc => hc.weaken.forget

/-- The application data in a message. -/
def payloadData : MessagePayload → Bytes
  | .applicationData p => p
  | _ => []

theorem done_handle (W : World) (hf : FragOk F.frag) (s : HState) (m : MessagePayload)
    (hi : F.inflight = payloadData m) : Done F (handle cfg W s m) := by
  cases m with
  | alert l d => exact (keep_handle W hf s _ (by simp)).done hi
  | handshake h => exact (keep_handle W hf s _ (by simp)).done hi
  | changeCipherSpec => exact (keep_handle W hf s _ (by simp)).done hi
  | applicationData p =>
    have hp : F = { F with inflight := p } := by cases F; simp only at hi; subst hi; rfl
    cases s with
    | traffic =>
      show Done F (takePlaintext p >>= fun _ => pure HState.traffic)
      refine Run.bind (Q := Flow F.rest true) ?_ fun _ c hc => hc
      rw [hp]
      exact take_spec (F := F) p
    | initial => exact fun _ hc => hc.weaken.forget
    | _ => exact done_fail

theorem done_rejecting (W : World) (hf : FragOk F.frag) {f : M Common HState} (h : Done F f) : Done F (rejecting W f) := by
  intro c hc
  have := h c hc
  unfold rejecting
  revert this
  rcases f c with ⟨c1, r⟩
  have habort : ∀ d e, Run (Flow F.rest false) (abort W d e : M Common HState) (Flow F.rest true) (Flow F.rest false) := by
    intro d e
    exact Run.bind (R := Flow F.rest true) (keep_fatal (F := F.rest) (s := false) W hf d)
      (fun _ => show Run (Flow F.rest false) (M.fail e : M Common HState) (Flow F.rest true) (Flow F.rest false)
        from fun _ hc => hc)
  cases r with
  | ok a => exact id
  | dropped => exact id
  | panicked => exact id
  | err e =>
    intro hw
    cases e with
    | inappropriate got => exact habort _ _ c1 hw
    | inappropriateHs got => exact habort _ _ c1 hw
    | _ => exact hw

theorem done_processMain (W : World) (hf : FragOk F.frag) (m : MessagePayload) (s : HState)
    (hi : F.inflight = payloadData m) : Done F (processMain cfg W m s) := by
  have hget : ∀ g : Common → M Common HState, (∀ c, Done F (g c)) → Done F (M.get >>= g) := fun g h c hc => h c c hc
  refine hget _ fun c => ?_
  by_cases hr : (c.mayReceive && isHelloRequest m) = true
  · rw [if_pos hr]
    have hm : ∀ p, m ≠ .applicationData p := by
      rintro p rfl
      simp [isHelloRequest] at hr
    have hi' : F.inflight = [] := by
      cases m with
      | applicationData p => exact absurd rfl (hm p)
      | _ => exact hi
    exact Keep.done (F := F) (Keep.bind (keep_warning W hf _) fun _ => Keep.pure) hi'
  · rw [if_neg hr]
    exact Run.bind (Q := Flow F true) (show Run (Flow F true) (note (.handle m)) (Flow F true) (Flow F.rest false)
      from fun c hc => hc.note (neutral_handle m)) fun _ => done_rejecting W hf (done_handle W hf s m hi)

/-! ## The connection -/

/-- The invariant of the whole connection: `F.recs` are records before those in the deframer. -/
def IoFlow (F : Flux) (consumed : Bytes) (strict : Bool) (io : Io) : Prop :=
  ∃ R, Flow { F with recs := R } strict io.common ∧ DeframerInv io.deframer R consumed

def IoRun (P : Io → Prop) (f : M Io α) (Q E : Io → Prop) : Prop :=
  ∀ io, P io → match f io with
    | (io', .ok _) => Q io'
    | (io', _) => E io'

section
variable {P Q R E : Io → Prop}

theorem IoRun.bind {f : M Io α} {g : α → M Io β} (hf : IoRun P f Q E) (hg : ∀ a, IoRun Q (g a) R E) : IoRun P (f >>= g) R E := by
  intro c hc
  have h1 := hf c hc
  show match M.bind f g c with
    | (c', .ok a) => R c'
    | (c', _) => E c'
  unfold M.bind
  revert h1
  rcases f c with ⟨c1, r⟩
  cases r with
  | ok a => intro h1; exact hg a c1 h1
  | err e => exact id
  | dropped => exact id
  | panicked => exact id

end

variable {consumed : Bytes}

/-- From one flux to another. -/
def IoStep (F F' : Flux) (consumed : Bytes) (f : M Io α) : Prop :=
  IoRun (IoFlow F consumed true) f (IoFlow F' consumed true) (IoFlow F' consumed false)

theorem IoFlow.weaken {io : Io} (h : IoFlow F consumed true io) : IoFlow F consumed false io := by
  obtain ⟨R, h1, h2⟩ := h
  exact ⟨R, h1.weaken, h2⟩

theorem ioLift {F' : Flux} {f : M Common α} (h : ∀ R, Run (Flow { F with recs := R } true) f (Flow { F' with recs := R } true)
    (Flow { F' with recs := R } false)) : IoStep F F' consumed (lift f) := by
  intro io ⟨R, h1, h2⟩
  have := h R io.common h1
  unfold lift
  revert this
  rcases f io.common with ⟨c, r⟩
  cases r <;> exact fun h => ⟨R, h, h2⟩

theorem ioKeep {f : M Common α} (h : ∀ R, Keep { F with recs := R } f) : IoStep F F consumed (lift f) := ioLift h

theorem ioPure {a : α} : IoStep F F consumed (Pure.pure a : M Io α) := fun _ h => h

theorem io_joinLoop (W : World) (hf : FragOk F.frag) (hi : F.inflight = []) (ms : List HandshakeMessage) (s : HState) :
    IoStep F F consumed (joinLoop cfg W ms s) := by
  induction ms generalizing s with
  | nil => exact ioPure
  | cons m ms ih =>
    refine IoRun.bind (Q := IoFlow F consumed true) (fun io h => h) fun _ => ?_
    refine IoRun.bind (Q := IoFlow F consumed true) (ioLift fun R => ?_) fun s => ih s
    have := done_processMain (cfg := cfg) (F := { F with recs := R }) W hf (.handshake m) s hi
    unfold Done Flux.rest at this
    simp only [← hi] at this
    exact this

theorem io_processHs (W : World) (hf : FragOk F.frag) (hi : F.inflight = []) (msg : OpaqueMessage) (s : HState) :
    IoStep F F consumed (processHs cfg W msg s) := by
  intro io ⟨R, h1, h2⟩
  unfold processHs
  rcases io.joiner.takeMessage (parseHandshake cfg.dnsOk) msg with ⟨j, r⟩
  cases r with
  | none =>
    exact ioKeep (F := F) (α := HState) (fun R => keep_abort (F := { F with recs := R }) W hf _ _) ({ io with joiner := j } : Io) ⟨R, h1, h2⟩
  | some _ =>
    refine io_joinLoop W hf hi _ s { io with joiner := j, common := { io.common with aligned := j.buf.isEmpty } } ⟨R, ?_, h2⟩
    exact ⟨h1.frag, h1.received, h1.chunks, h1.wire, h1.sent, h1.small, h1.recs, h1.data, h1.closing, h1.closed, h1.limit, h1.tidy⟩

/-- After a message, nothing is in flight. -/
def Flux.idle (F : Flux) : Flux := { F with inflight := [], closing := False }

/-- While `msg` is processed. -/
def Flux.busy (F : Flux) (msg : OpaqueMessage) : Flux := { F with inflight := dataOf msg, closing := IsClose msg }

theorem Flow.idle {c : Common} {strict : Bool} (h : Flow F strict c) (hi : F.inflight = []) : Flow F.idle strict c :=
  ⟨h.frag, h.received, h.chunks, h.wire, h.sent, h.small, h.recs, by
    have := h.data
    rw [hi] at this
    exact this, False.elim, h.closed, h.limit, h.tidy⟩

theorem Flow.idle' {c : Common} (h : Flow F false c) : Flow F.idle false c :=
  ⟨h.frag, h.received, h.chunks, h.wire, h.sent, h.small, h.recs, h.data, False.elim, h.closed, h.limit, h.tidy⟩

theorem IoStep.idle {F' : Flux} {f : M Io α} (h : IoStep F F' consumed f) (hi : F'.inflight = []) : IoStep F F'.idle consumed f := by
  intro io hio
  have := h io hio
  revert this
  rcases f io with ⟨c, r⟩
  cases r with
  | ok a => exact fun ⟨R, h1, h2⟩ => ⟨R, Flow.idle (F := { F' with recs := R }) h1 hi, h2⟩
  | err e => exact fun ⟨R, h1, h2⟩ => ⟨R, Flow.idle' (F := { F' with recs := R }) h1, h2⟩
  | dropped => exact fun ⟨R, h1, h2⟩ => ⟨R, Flow.idle' (F := { F' with recs := R }) h1, h2⟩
  | panicked => exact fun ⟨R, h1, h2⟩ => ⟨R, Flow.idle' (F := { F' with recs := R }) h1, h2⟩

theorem keep_processAlert (W : World) (hf : FragOk F.frag) (l d : UInt8) (hd : d = 0 → F.closing) : Keep F (processAlert W l d) := by
  unfold processAlert
  have tail : Keep F (if d = 0 then M.modify fun c => { c with closeNotify := true }
      else if l = 1 then pure () else M.fail (.alertReceived d)) := by
    by_cases h0 : d = 0
    · rw [if_pos h0]
      intro c hc
      exact ⟨hc.frag, hc.received, hc.chunks, hc.wire, hc.sent, hc.small, hc.recs, hc.data, hc.closing,
        fun _ => hc.closing (hd h0), hc.limit, hc.tidy⟩
    · rw [if_neg h0]
      by_cases h1 : l = 1
      · rw [if_pos h1]
        exact Keep.pure
      · rw [if_neg h1]
        exact Keep.fail
  by_cases hl : l ≠ 1 ∧ l ≠ 2
  · simp only [hl, if_true, ne_eq, not_false_eq_true, and_self]
    refine Keep.bind (keep_fatal W hf _) fun _ => ?_
    simpa [hl.1] using tail
  · simp only [hl, if_false]
    exact tail

theorem io_processPlain (W : World) (hf : FragOk F.frag) (msg : OpaqueMessage) (s : HState) :
    IoStep (F.busy msg) F.idle consumed (processPlain cfg W msg s) := by
  unfold processPlain
  split
  · rename_i hm
    have hi : (F.busy msg).inflight = [] := by
      show dataOf msg = []
      rw [dataOf, hm]
      rfl
    exact (io_processHs (F := F.busy msg) W hf hi msg s).idle hi
  · split
    · exact fun io ⟨R, h1, h2⟩ => ⟨R, Flow.idle' (F := { F.busy msg with recs := R }) h1.weaken, h2⟩
    · rename_i l d hnew
      obtain ⟨-, ht, he⟩ := (messagePayload_new _ _ _ _ _).1 hnew
      have hi : (F.busy msg).inflight = [] := by
        show dataOf msg = []
        rw [dataOf, ← ht]
        rfl
      refine IoStep.idle (F' := F.busy msg) (IoRun.bind (Q := IoFlow (F.busy msg) consumed true) (ioKeep fun R =>
        keep_processAlert (F := { F.busy msg with recs := R }) W hf l d fun hd => ?_) fun _ => ioPure) hi
      subst hd
      exact ⟨ht.symm, l, he.symm⟩
    · rename_i m hna hnew
      obtain ⟨-, ht, he⟩ := (messagePayload_new _ _ _ _ _).1 hnew
      have hi : dataOf msg = payloadData m := by
        rw [dataOf, ← ht]
        cases m with
        | applicationData p => exact he.symm
        | _ => rfl
      refine IoStep.idle (F' := (F.busy msg).rest) (ioLift fun R => ?_) rfl
      exact done_processMain (F := { F.busy msg with recs := R }) W hf m s hi

/-! ## Records -/

theorem Flow.heardPlain {c : Common} (h : Flow F.idle true c) (msg : OpaqueMessage) :
    Flow { F.busy msg with recs := F.recs ++ [msg] } true { c with log := c.log ++ [.plain msg] } := by
  have hh : heardOf (c.log ++ [.plain msg]) = heardOf c.log ++ [msg] := by rw [heardOf, flatMap_snoc]; rfl
  have hn : ∀ f : Ev → List Byte, f (.plain msg) = [] → (c.log ++ [Ev.plain msg]).flatMap f = c.log.flatMap f := by
    intro f hf
    rw [flatMap_snoc, hf, List.append_nil]
  refine ⟨h.frag, ?_, h.chunks, ?_, ?_, ?_, ?_, ?_, fun hc => ?_, fun hc => heard_mono (h.closed hc), h.limit, h.tidy⟩
  · exact (hn Ev.delivered rfl).trans h.received
  · exact (hn _ rfl).trans h.wire
  · dsimp only
    rw [show sentOf (c.log ++ [.plain msg]) = sentOf c.log from hn Ev.sent rfl]
    exact h.sent
  · intro m r hm
    rcases List.mem_append.1 hm with hm | hm
    · exact h.small m r hm
    · simp at hm
  · show recordsOf _ = _
    rw [recordsOf, flatMap_snoc]
    have := h.recs
    rw [show List.flatMap Ev.record c.log = F.recs from this]
    rfl
  · dsimp only
    rw [show deliveredOf (c.log ++ [.plain msg]) = deliveredOf c.log from hn Ev.delivered rfl, dataIn, hh]
    have := h.data
    simp only [if_true, Flux.idle, List.append_nil] at this
    show deliveredOf c.log ++ dataOf msg = _
    rw [this, flatMap_snoc]
    rfl
  · exact ⟨msg, by rw [hh]; simp, hc⟩

theorem Flow.heardNext {c : Common} (h : Flow F.idle true c) (msg : OpaqueMessage) :
    Flow (F.busy msg) true { c with log := c.log ++ [.nextIn (.ok (some msg))] } := by
  have hh : heardOf (c.log ++ [.nextIn (.ok (some msg))]) = heardOf c.log ++ [msg] := by rw [heardOf, flatMap_snoc]; rfl
  have hn : ∀ f : Ev → List Byte, f (.nextIn (.ok (some msg))) = [] →
      (c.log ++ [Ev.nextIn (.ok (some msg))]).flatMap f = c.log.flatMap f := by
    intro f hf
    rw [flatMap_snoc, hf, List.append_nil]
  refine ⟨h.frag, ?_, h.chunks, ?_, ?_, ?_, ?_, ?_, fun hc => ?_, fun hc => heard_mono (h.closed hc), h.limit, h.tidy⟩
  · exact (hn Ev.delivered rfl).trans h.received
  · exact (hn _ rfl).trans h.wire
  · dsimp only
    rw [show sentOf (c.log ++ [.nextIn (.ok (some msg))]) = sentOf c.log from hn Ev.sent rfl]
    exact h.sent
  · intro m r hm
    rcases List.mem_append.1 hm with hm | hm
    · exact h.small m r hm
    · simp at hm
  · show recordsOf _ = _
    rw [recordsOf, flatMap_snoc]
    exact (List.append_nil _).trans h.recs
  · dsimp only
    rw [show deliveredOf (c.log ++ [.nextIn (.ok (some msg))]) = deliveredOf c.log from hn Ev.delivered rfl, dataIn, hh]
    have := h.data
    simp only [if_true, Flux.idle, List.append_nil] at this
    show deliveredOf c.log ++ dataOf msg = _
    rw [this, flatMap_snoc]
    rfl
  · exact ⟨msg, by rw [hh]; simp, hc⟩

theorem Flow.pushIn {c : Common} {strict : Bool} (h : Flow F strict c) (msg : OpaqueMessage) (r : Reply Unit) :
    Flow { F with recs := F.recs ++ [msg] } strict { c with log := c.log ++ [.pushIn msg r] } := by
  have hh : heardOf (c.log ++ [.pushIn msg r]) = heardOf c.log := by rw [heardOf, flatMap_snoc]; simp [Ev.heard, heardOf]
  have hn : ∀ f : Ev → List Byte, f (.pushIn msg r) = [] → (c.log ++ [Ev.pushIn msg r]).flatMap f = c.log.flatMap f := by
    intro f hf
    rw [flatMap_snoc, hf, List.append_nil]
  refine ⟨h.frag, ?_, h.chunks, ?_, ?_, ?_, ?_, ?_, fun hc => heard_mono (h.closing hc), fun hc => heard_mono (h.closed hc), h.limit, h.tidy⟩
  · exact (hn Ev.delivered rfl).trans h.received
  · exact (hn _ rfl).trans h.wire
  · dsimp only
    rw [show sentOf (c.log ++ [.pushIn msg r]) = sentOf c.log from hn Ev.sent rfl]
    exact h.sent
  · intro m r' hm
    rcases List.mem_append.1 hm with hm | hm
    · exact h.small m r' hm
    · simp at hm
  · show recordsOf _ = _
    rw [recordsOf, flatMap_snoc]
    have := h.recs
    rw [show List.flatMap Ev.record c.log = F.recs from this]
    rfl
  · dsimp only
    rw [show deliveredOf (c.log ++ [.pushIn msg r]) = deliveredOf c.log from hn Ev.delivered rfl, dataIn, hh]
    exact h.data

/-- What is left of a function of the connection: it may also keep an error. -/
def Kept (F : Flux) (consumed : Bytes) (r : Except CErr HState) (io : Io) : Prop :=
  match r with
  | .ok _ => IoFlow F.idle consumed true io
  | .error _ => IoFlow F.idle consumed false io

/-- `f` leaves the invariant, strictly if it ends well. -/
def Body (F : Flux) (consumed : Bytes) (P : Io → Prop) (f : M Io (Except CErr HState)) : Prop :=
  ∀ io, P io → match f io with
    | (io', .ok r) => Kept F consumed r io'
    | (io', _) => IoFlow F.idle consumed false io'

theorem Body.bind {P Q : Io → Prop} {f : M Io α} {g : α → M Io (Except CErr HState)}
    (hf : IoRun P f Q (IoFlow F.idle consumed false)) (hg : ∀ a, Body F consumed Q (g a)) : Body F consumed P (f >>= g) := by
  intro c hc
  have h1 := hf c hc
  show match M.bind f g c with
    | (io', .ok r) => Kept F consumed r io'
    | (io', _) => IoFlow F.idle consumed false io'
  unfold M.bind
  revert h1
  rcases f c with ⟨c1, r⟩
  cases r with
  | ok a => intro h1; exact hg a c1 h1
  | err e => exact id
  | dropped => exact id
  | panicked => exact id

/-- A message is processed, and then the rest if that goes well. -/
theorem Body.catching {P Q : Io → Prop} {f : M Io HState} {g : HState → M Io (Except CErr HState)}
    (hf : IoRun P f Q (IoFlow F.idle consumed false)) (hg : ∀ s, Body F consumed Q (g s)) :
    Body F consumed P (catching f >>= fun r => match r with | .error e => pure (.error e) | .ok s => g s) := by
  intro c hc
  have h1 := hf c hc
  show match M.bind (Tlsn.Client.catching f) _ c with
    | (io', .ok r) => Kept F consumed r io'
    | (io', _) => IoFlow F.idle consumed false io'
  unfold M.bind Tlsn.Client.catching
  revert h1
  rcases f c with ⟨c1, r⟩
  cases r with
  | ok a => intro h1; exact hg a c1 h1
  | err e => exact id
  | dropped => exact id
  | panicked => exact id

/-- `f` leaves the deframer alone. -/
def Apart (f : M Io α) : Prop := ∀ io, (f io).1.deframer = io.deframer

theorem apart_lift (f : M Common α) : Apart (lift f) := fun _ => rfl

theorem Apart.bind {f : M Io α} {g : α → M Io β} (hf : Apart f) (hg : ∀ a, Apart (g a)) : Apart (f >>= g) := by
  intro io
  have h1 := hf io
  show (M.bind f g io).1.deframer = _
  unfold M.bind
  revert h1
  rcases f io with ⟨io1, r⟩
  cases r with
  | ok a => intro h1; exact (hg a io1).trans h1
  | err e => exact id
  | dropped => exact id
  | panicked => exact id

theorem apart_joinLoop (W : World) (ms : List HandshakeMessage) (s : HState) : Apart (joinLoop cfg W ms s) := by
  induction ms generalizing s with
  | nil => exact fun _ => rfl
  | cons m ms ih => exact Apart.bind (fun _ => rfl) fun _ => Apart.bind (apart_lift _) fun s => ih s

theorem apart_processPlain (W : World) (msg : OpaqueMessage) (s : HState) : Apart (processPlain cfg W msg s) := by
  unfold processPlain
  split
  · intro io
    unfold processHs
    rcases io.joiner.takeMessage (parseHandshake cfg.dnsOk) msg with ⟨j, r⟩
    cases r with
    | none => rfl
    | some _ => exact apart_joinLoop W _ s _
  · split
    · exact fun _ => rfl
    · exact Apart.bind (apart_lift _) fun _ _ => rfl
    · exact apart_lift _

theorem io_frameLoop (W : World) (hf : FragOk F.frag) (frames : List OpaqueMessage) (s : HState) :
    Body F consumed (fun io => IoFlow F.idle consumed true io ∧ io.deframer.frames = frames) (frameLoop cfg W frames s) := by
  induction frames generalizing s with
  | nil => exact fun io h => h.1
  | cons msg rest ih =>
    intro io ⟨⟨R, h1, h2⟩, hfr⟩
    have hpop : DeframerInv { io.deframer with frames := rest } (R ++ [msg]) consumed :=
      ⟨h2.len, h2.used, by rw [h2.split, hfr]; simp⟩
    cases hd : io.common.decrypting with
    | true =>
      have : frameLoop cfg W (msg :: rest) s io = (lift (ask (W.pushIn · msg) (.pushIn msg)) >>= fun _ : Unit =>
          frameLoop cfg W rest s) ({ io with deframer := { io.deframer with frames := rest } } : Io) := by
        show (if io.common.decrypting then _ else _ : M Io (Except CErr HState)) _ = _
        rw [hd]
        rfl
      rw [this]
      refine Body.bind (F := F) (consumed := consumed)
        (P := fun io' => io' = { io with deframer := { io.deframer with frames := rest } })
        (Q := fun io => IoFlow F.idle consumed true io ∧ io.deframer.frames = rest) ?_ (fun _ => ih s) _ rfl
      rintro _ rfl
      unfold lift ask
      simp only
      have key : ∀ r, Flow { F.idle with recs := R ++ [msg] } true { io.common with log := io.common.log ++ [.pushIn msg r] } :=
        fun r => Flow.pushIn (F := { F.idle with recs := R }) h1 msg r
      cases hr : W.pushIn io.common.log msg with
      | ok a => exact ⟨⟨R ++ [msg], key _, hpop⟩, rfl⟩
      | failed code => exact ⟨R ++ [msg], (key _).weaken, hpop⟩
      | dropped => exact ⟨R ++ [msg], (key _).weaken, hpop⟩
      | panicked => exact ⟨R ++ [msg], (key _).weaken, hpop⟩
    | false =>
      have : frameLoop cfg W (msg :: rest) s io = (lift (note (.plain msg)) >>= fun _ : Unit =>
          catching (processPlain cfg W msg s) >>= fun r => match r with
            | .error e => pure (.error e)
            | .ok s => frameLoop cfg W rest s) ({ io with deframer := { io.deframer with frames := rest } } : Io) := by
        show (if io.common.decrypting then _ else _ : M Io (Except CErr HState)) _ = _
        rw [hd]
        rfl
      rw [this]
      refine Body.bind (F := F) (consumed := consumed)
        (P := fun io' => io' = { io with deframer := { io.deframer with frames := rest } })
        (Q := fun io => IoFlow (F.busy msg) consumed true io ∧ io.deframer.frames = rest)
        (fun _ h => ?_) (fun _ => ?_) _ rfl
      · subst h
        exact ⟨⟨R ++ [msg], Flow.heardPlain (F := { F with recs := R }) h1 msg, hpop⟩, rfl⟩
      · refine Body.catching (Q := fun io => IoFlow F.idle consumed true io ∧ io.deframer.frames = rest) ?_ ih
        intro io1 ⟨hio1, hfr1⟩
        have h3 := io_processPlain (cfg := cfg) W hf msg s io1 hio1
        have h4 := apart_processPlain (cfg := cfg) W msg s io1
        revert h3 h4
        rcases processPlain cfg W msg s io1 with ⟨io2, r⟩
        cases r with
        | ok a => exact fun h3 h4 => ⟨h3, by rw [show io2.deframer = _ from h4]; exact hfr1⟩
        | err e => exact fun h3 _ => h3
        | dropped => exact fun h3 _ => h3
        | panicked => exact fun h3 _ => h3

theorem io_drainIn (W : World) (hf : FragOk F.frag) (n : Nat) (s : HState) :
    Body F consumed (IoFlow F.idle consumed true) (drainIn cfg W n s) := by
  induction n generalizing s with
  | zero => exact fun io h => h.weaken
  | succ n ih =>
    intro io hio
    obtain ⟨R, h1, h2⟩ := hio
    have : drainIn cfg W (n + 1) s io = (lift (ask W.nextIn .nextIn) >>= fun r => match r with
        | none => pure (.ok s)
        | some msg => catching (processPlain cfg W msg s) >>= fun r => match r with
          | .error e => pure (.error e)
          | .ok s => drainIn cfg W n s) io := rfl
    rw [this]
    show match M.bind (lift (ask W.nextIn .nextIn)) _ io with
      | (io', .ok r) => Kept F consumed r io'
      | (io', _) => IoFlow F.idle consumed false io'
    unfold M.bind lift ask
    simp only
    have hn : ∀ r, (Ev.nextIn r).heard = [] → Neutral (.nextIn r) := fun r hr =>
      ⟨rfl, fun _ => rfl, rfl, rfl, hr, by simp⟩
    cases hr : W.nextIn io.common.log with
    | failed code => exact ⟨R, (h1.note (hn _ rfl)).weaken, h2⟩
    | dropped => exact ⟨R, (h1.note (hn _ rfl)).weaken, h2⟩
    | panicked => exact ⟨R, (h1.note (hn _ rfl)).weaken, h2⟩
    | ok a =>
      cases a with
      | none => exact ⟨R, h1.note (hn _ rfl), h2⟩
      | some msg =>
        exact Body.catching (io_processPlain W hf msg s) ih _
          ⟨R, Flow.heardNext (F := { F with recs := R }) h1 msg, h2⟩

theorem keep_drainOut (W : World) (n : Nat) : Keep F (drainOut W n) := by
  induction n with
  | zero => exact fun c h => h.weaken
  | succ n ih =>
    intro c hc
    have hn : ∀ r, (∀ f, (Ev.nextOut r).wire f = []) → Neutral (.nextOut r) := fun r hr =>
      ⟨rfl, hr, rfl, rfl, rfl, by simp⟩
    have hstep : drainOut W (n + 1) c = M.bind (ask W.nextOut .nextOut) (fun r => match r with
      | none => pure ()
      | some msg => queueTls msg >>= fun _ => drainOut W n) c := rfl
    rw [hstep]
    unfold M.bind ask
    simp only
    cases hr : W.nextOut c.log with
    | failed code => exact (hc.note (hn _ fun _ => rfl)).weaken
    | dropped => exact (hc.note (hn _ fun _ => rfl)).weaken
    | panicked => exact (hc.note (hn _ fun _ => rfl)).weaken
    | ok a =>
      cases a with
      | none => exact hc.note (hn _ fun _ => rfl)
      | some m =>
        refine ih { c with log := c.log ++ [.nextOut (.ok (some m))], sendableTls := (c.sendableTls.append m.encode).1 } ?_
        have hd : ∀ f : Ev → List Byte, f (.nextOut (.ok (some m))) = [] →
            (c.log ++ [Ev.nextOut (.ok (some m))]).flatMap f = c.log.flatMap f := by
          intro f hf
          rw [flatMap_snoc, hf, List.append_nil]
        have hh : heardOf (c.log ++ [.nextOut (.ok (some m))]) = heardOf c.log := by
          rw [heardOf, flatMap_snoc]; simp [Ev.heard, heardOf]
        refine ⟨hc.frag, ?_, hc.chunks, ?_, ?_, ?_, ?_, ?_, fun h => heard_mono (hc.closing h),
          fun h => heard_mono (hc.closed h), hc.limit, hc.tidy⟩
        · exact (hd Ev.delivered rfl).trans hc.received
        · show List.flatMap _ _ = F.wr ++ (c.sendableTls.append m.encode).1.chunks.flatten
          rw [flatMap_snoc, hc.wire, append_flatten, List.append_assoc]
          rfl
        · dsimp only
          rw [show sentOf (c.log ++ [.nextOut (.ok (some m))]) = sentOf c.log from hd Ev.sent rfl]
          exact hc.sent
        · intro m' r hm
          rcases List.mem_append.1 hm with hm | hm
          · exact hc.small m' r hm
          · simp at hm
        · show recordsOf _ = _
          rw [recordsOf, flatMap_snoc]
          exact (List.append_nil _).trans hc.recs
        · dsimp only
          rw [show deliveredOf (c.log ++ [.nextOut (.ok (some m))]) = deliveredOf c.log from hd Ev.delivered rfl, dataIn, hh]
          exact hc.data

theorem Body.pure {r : Except CErr HState} : Body F consumed (Kept F consumed r) (Pure.pure r) := fun _ h => h

/-- A body, and then the rest if that goes well. -/
theorem Body.andThen {P : Io → Prop} {f : M Io (Except CErr HState)} {g : HState → M Io (Except CErr HState)}
    (hf : Body F consumed P f) (hg : ∀ s, Body F consumed (IoFlow F.idle consumed true) (g s)) :
    Body F consumed P (f >>= fun r => match r with | .error e => Pure.pure (.error e) | .ok s => g s) := by
  intro c hc
  have h1 := hf c hc
  show match M.bind f _ c with
    | (io', .ok r) => Kept F consumed r io'
    | (io', _) => IoFlow F.idle consumed false io'
  unfold M.bind
  revert h1
  rcases f c with ⟨c1, r⟩
  cases r with
  | ok a =>
    intro h1
    cases a with
    | ok s => exact hg s c1 h1
    | error e => exact h1
  | err e => exact id
  | dropped => exact id
  | panicked => exact id

theorem io_processBody (W : World) (hf : FragOk F.frag) (n : Nat) (s : HState) :
    Body F consumed (IoFlow F.idle.untidy consumed true) (processBody cfg W n s) := by
  intro io hio
  have hstep : processBody cfg W n s io = (if io.deframer.desynced then (M.fail .corruptMessage : M Io (Except CErr HState)) else
      lift (flushPlaintext W) >>= fun _ : Unit => frameLoop cfg W io.deframer.frames s >>= fun r => match r with
      | .error e => Pure.pure (.error e)
      | .ok s => lift (ask W.flush .flush) >>= fun _ : Unit => drainIn cfg W n s >>= fun r => match r with
        | .error e => Pure.pure (.error e)
        | .ok s => lift (drainOut W n) >>= fun _ : Unit => Pure.pure (.ok s)) io := rfl
  rw [hstep]
  by_cases hd : io.deframer.desynced = true
  · rw [if_pos hd]
    obtain ⟨R, h1, h2⟩ := hio
    exact ⟨R, Flow.failed (F := { F.idle with recs := R }) h1, h2⟩
  · rw [if_neg hd]
    have hflush : IoStep F.idle F.idle consumed (lift (ask W.flush .flush)) :=
      ioKeep fun R => Keep.ask fun r => (⟨rfl, fun _ => rfl, rfl, rfl, rfl, by simp⟩ : Neutral (.flush r))
    refine Body.bind (F := F) (consumed := consumed) (P := fun io' => io' = io)
      (Q := fun io' => IoFlow F.idle consumed true io' ∧ io'.deframer.frames = io.deframer.frames) ?_
      (fun _ => Body.andThen (io_frameLoop W hf _ s) fun s => Body.bind hflush fun _ =>
        Body.andThen (io_drainIn W hf n s) fun s => Body.bind (ioKeep fun R => keep_drainOut W n) fun _ => fun _ h => h) io rfl
    rintro _ rfl
    have := ioLift (F := F.idle.untidy) (F' := F.idle) (consumed := consumed)
      (fun R => flush_spec (F := { F.idle with recs := R }) W hf) _ hio
    revert this
    unfold lift
    rcases flushPlaintext W _ with ⟨c, r⟩
    cases r with
    | ok a => exact fun h => ⟨h, rfl⟩
    | err e => exact id
    | dropped => exact id
    | panicked => exact id

end Tlsn.Client
