import Verif.Client.FlowProps
import Verif.Sdk.MachineProps

/-! # The flow of data through all the calls of a connection -/

namespace Tlsn.Client

variable {cfg : ClientCfg}

/-- What the caller has seen. -/
def fluxOf (frag : Fragmenter) (out : List (Call × CReply)) : Flux :=
  { frag, rd := readOut out, wr := wireOut out, acc := written out, recs := [], inflight := [], closing := False, tidy := False }

def isOk : Except CErr HState → Bool
  | .ok _ => true
  | .error _ => false

/-- The invariant of a connection with what its caller has seen. -/
def Whole (frag : Fragmenter) (c : Conn) (out : List (Call × CReply)) : Prop :=
  IoFlow (fluxOf frag out) (wireIn out) (isOk c.state) c.io

theorem IoFlow.loosen {F : Flux} {consumed : Bytes} {s : Bool} {io : Io} (h : IoFlow F consumed s io) : IoFlow F consumed false io := by
  obtain ⟨R, h1, h2⟩ := h
  exact ⟨R, h1.weaken, h2⟩

variable {F : Flux} {s : Bool} {frag : Fragmenter} {out : List (Call × CReply)}

/-- A push keeps the invariant even if it fails. -/
theorem always_pushAll (W : World) (ms : List OpaqueMessage) (hs : ∀ m ∈ ms, m.payload.length ≤ F.frag.maxFrag)
    (ht : ∀ m ∈ ms, m.typ ≠ .applicationData) (c : Common) (hc : Flow F s c) : Flow F s (pushAll W ms c).1 := by
  induction ms generalizing c with
  | nil => exact hc
  | cons m ms ih =>
    have hd : dataOf m = [] := by rw [dataOf, if_neg (ht m (by simp))]
    have key : ∀ r, Flow F s { c with log := c.log ++ [.pushOut m r] } := by
      intro r
      refine hc.pushOut m r (hs m (by simp)) fun x hx => ?_
      subst hx
      simpa [hd] using hc.sent
    show Flow F s (M.bind (ask (W.pushOut · m) (.pushOut m)) (fun _ => pushAll W ms) c).1
    unfold M.bind ask
    simp only
    cases hr : W.pushOut c.log m with
    | ok a => exact ih (fun x hx => hs x (by simp [hx])) (fun x hx => ht x (by simp [hx])) _ (key _)
    | failed code => exact key _
    | dropped => exact key _
    | panicked => exact key _

theorem always_warning (W : World) (hf : FragOk F.frag) (d : UInt8) (c : Common) (hc : Flow F s c) :
    Flow F s (sendWarning W d c).1 := by
  show Flow F s (sendMsg W .tls12 (.alert 1 d) c.encrypting c).1
  cases c.encrypting with
  | false =>
    have := keep_clear (F := F) (s := s) W .tls12 (.alert 1 d) rfl c hc
    obtain ⟨b, -, h2⟩ := queueAll_eq (c.fragmenter.fragment (plainOf .tls12 (.alert 1 d))) { c with log := c.log ++ [.clear (.alert 1 d)] }
    have he : sendMsg W .tls12 (.alert 1 d) false c = ({ c with log := c.log ++ [.clear (.alert 1 d)], sendableTls := b }, .ok ()) := h2
    rw [he] at this ⊢
    exact this
  | true =>
    show Flow F s (pushAll W (c.fragmenter.fragment (plainOf .tls12 (.alert 1 d)))
      { c with log := c.log ++ [.protect (.alert 1 d)] }).1
    have hsm : ∀ x ∈ c.fragmenter.fragment (plainOf .tls12 (.alert 1 d)), x.typ = .alert ∧ x.payload.length ≤ F.frag.maxFrag := by
      rw [hc.frag]
      exact fragment_small hf _
    refine always_pushAll W _ (fun x hx => (hsm x hx).2) (fun x hx => by rw [(hsm x hx).1]; simp) _ ?_
    exact hc.note (e := .protect (.alert 1 d)) ⟨rfl, fun _ => rfl, rfl, rfl, rfl, by simp⟩

theorem silent (c : Call) (r : CReply) (h1 : ∀ n b, (c, r) ≠ (.readPlaintext n, .data b)) (h2 : ∀ b n, (c, r) ≠ (.writePlaintext b, .count n))
    (h3 : ∀ a n, (c, r) ≠ (.readTls a, .count n)) (h4 : ∀ n b, (c, r) ≠ (.writeTls n, .data b)) :
    fluxOf frag (out ++ [(c, r)]) = fluxOf frag out ∧ wireIn (out ++ [(c, r)]) = wireIn out := by
  unfold fluxOf readOut written wireIn wireOut
  simp only [List.flatMap_append, List.flatMap_cons, List.flatMap_nil, List.append_nil]
  cases c <;> cases r <;> first
    | exact absurd rfl (h1 _ _)
    | exact absurd rfl (h2 _ _)
    | exact absurd rfl (h3 _ _)
    | exact absurd rfl (h4 _ _)
    | simp

theorem whole_step (W : World) (hf : FragOk frag) (c : Conn) (call : Call) (h : Whole frag c out) :
    Whole frag (c.step cfg W call).1 (out ++ [(call, (c.step cfg W call).2)]) := by
  have quiet : ∀ {c' : Conn} {r : CReply}, IoFlow (fluxOf frag out) (wireIn out) (isOk c'.state) c'.io →
      (∀ n b, (call, r) ≠ (.readPlaintext n, .data b)) → (∀ b n, (call, r) ≠ (.writePlaintext b, .count n)) →
      (∀ a n, (call, r) ≠ (.readTls a, .count n)) → (∀ n b, (call, r) ≠ (.writeTls n, .data b)) →
      Whole frag c' (out ++ [(call, r)]) := by
    intro c' r h0 h1 h2 h3 h4
    obtain ⟨e1, e2⟩ := silent (frag := frag) (out := out) call r h1 h2 h3 h4
    unfold Whole
    rw [e1, e2]
    exact h0
  cases call with
  | start =>
    refine quiet (c' := (callStart cfg W c).1) (r := (callStart cfg W c).2) ?_ (by simp) (by simp) (by simp) (by simp)
    have h' : IoFlow (fluxOf frag out) (wireIn out) (isOk c.state) c.io := h
    obtain ⟨st, io⟩ := c
    unfold callStart
    cases st with
    | error e => exact h'
    | ok hst =>
      cases hst with
      | initial =>
        have hk : IoRun (IoFlow (fluxOf frag out) (wireIn out) true) (lift (startHandshake cfg W))
          (IoFlow (fluxOf frag out) (wireIn out) true) (IoFlow (fluxOf frag out) (wireIn out) false) :=
          ioKeep (F := fluxOf frag out) (consumed := wireIn out) fun R => keep_start W
        have := hk io h'
        revert this
        unfold lift
        rcases startHandshake cfg W io.common with ⟨cm, r⟩
        cases r with
        | ok a => exact id
        | err e => exact id
        | dropped => exact id
        | panicked => exact id
      | _ => exact h'.loosen
  | readTls avail =>
    obtain ⟨R, h1, h2⟩ := h
    have := (deframerInv_read h2 avail).1
    refine ⟨R, ?_, ?_⟩
    · have he : fluxOf frag (out ++ [(.readTls avail, .count (c.io.deframer.read avail).2)]) = fluxOf frag out := by
        unfold fluxOf readOut written wireOut
        simp only [List.flatMap_append, List.flatMap_cons, List.flatMap_nil, List.append_nil]
      show Flow { fluxOf frag (out ++ [(.readTls avail, .count (c.io.deframer.read avail).2)]) with recs := R } _ _
      rw [he]
      exact h1
    · show DeframerInv (c.io.deframer.read avail).1 R (wireIn (out ++ [(.readTls avail, .count (c.io.deframer.read avail).2)]))
      have he : wireIn (out ++ [(.readTls avail, .count (c.io.deframer.read avail).2)]) =
          wireIn out ++ avail.take (c.io.deframer.read avail).2 := by
        simp only [wireIn, List.flatMap_append, List.flatMap_cons, List.flatMap_nil, List.append_nil]
      rw [he]
      exact this
  | process n =>
    refine quiet (c' := (callProcess cfg W n c).1) (r := (callProcess cfg W n c).2) ?_ (by simp) (by simp) (by simp) (by simp)
    have h' : IoFlow (fluxOf frag out) (wireIn out) (isOk c.state) c.io := h
    obtain ⟨st, io⟩ := c
    unfold callProcess
    cases st with
    | error e => exact h'
    | ok hst =>
      have := io_processBody (cfg := cfg) (F := fluxOf frag out) (consumed := wireIn out) W hf n hst io h'
      simp only
      revert this
      rcases processBody cfg W n hst io with ⟨io', r⟩
      cases r with
      | ok a =>
        cases a with
        | ok s => exact id
        | error e => exact id
      | err e => exact id
      | dropped => exact id
      | panicked => exact id
  | writePlaintext buf =>
    obtain ⟨R, h1, h2⟩ := h
    have hcall : ∀ n, fluxOf frag (out ++ [(.writePlaintext buf, .count n)]) = { fluxOf frag out with acc := written out ++ buf.take n } ∧
        wireIn (out ++ [(.writePlaintext buf, .count n)]) = wireIn out := by
      intro n
      unfold fluxOf readOut written wireIn wireOut
      simp only [List.flatMap_append, List.flatMap_cons, List.flatMap_nil, List.append_nil, and_self]
    have hstep : c.step cfg W (.writePlaintext buf) = callWrite buf c := rfl
    rw [hstep]
    unfold callWrite
    by_cases hb : buf.isEmpty = true
    · rw [if_pos hb]
      unfold Whole
      rw [(hcall 0).1, (hcall 0).2]
      refine ⟨R, ?_, h2⟩
      simpa [fluxOf] using h1
    · rw [if_neg hb]
      unfold Whole
      simp only
      rw [(hcall _).1, (hcall _).2]
      refine ⟨R, ⟨h1.frag, h1.received, h1.chunks, h1.wire, ?_, h1.small, h1.recs, h1.data, h1.closing, h1.closed, ?_,
        fun _ h => h.elim⟩, h2⟩
      · have hs := h1.sent
        dsimp only
        cases hst : isOk c.state with
        | false =>
          rw [hst] at hs
          exact hs.trans (List.prefix_append _ _)
        | true =>
          rw [hst] at hs
          simp only [if_true] at hs ⊢
          show sentOf c.io.common.log ++ (c.io.common.sendable.append _).1.chunks.flatten = _
          rw [append_flatten, ← List.append_assoc, hs]
          rfl
      · show (c.io.common.sendable.append _).1.limit = _
        have : ∀ b : Bytes, (c.io.common.sendable.append b).1.limit = c.io.common.sendable.limit := by
          intro b
          unfold VecBuf.append
          split <;> rfl
        rw [this]
        exact h1.limit
  | readPlaintext room =>
    obtain ⟨R, h1, h2⟩ := h
    have hcall : ∀ b, fluxOf frag (out ++ [(.readPlaintext room, .data b)]) = { fluxOf frag out with rd := readOut out ++ b } ∧
        wireIn (out ++ [(.readPlaintext room, .data b)]) = wireIn out := by
      intro n
      unfold fluxOf readOut written wireIn wireOut
      simp only [List.flatMap_append, List.flatMap_cons, List.flatMap_nil, List.append_nil, and_self]
    obtain ⟨r1, r2, r3⟩ := readChunks_spec (c.io.common.received.chunks.length + 1) c.io.common.received.chunks room h1.chunks
      (Nat.lt_succ_self _)
    show IoFlow (fluxOf frag (out ++ [(.readPlaintext room, .data (c.io.common.received.read room).2)]))
      (wireIn (out ++ [(.readPlaintext room, .data (c.io.common.received.read room).2)])) _ _
    rw [(hcall _).1, (hcall _).2]
    refine ⟨R, ⟨h1.frag, ?_, r3, h1.wire, h1.sent, h1.small, h1.recs, h1.data, h1.closing, h1.closed, h1.limit, h1.tidy⟩, h2⟩
    show deliveredOf c.io.common.log = readOut out ++ (readChunks (c.io.common.received.chunks.length + 1)
      c.io.common.received.chunks room).2 ++ (readChunks (c.io.common.received.chunks.length + 1)
      c.io.common.received.chunks room).1.flatten
    rw [r1, r2, List.append_assoc, List.take_append_drop]
    exact h1.received
  | writeTls accept =>
    obtain ⟨R, h1, h2⟩ := h
    have hcall : ∀ b, fluxOf frag (out ++ [(.writeTls accept, .data b)]) = { fluxOf frag out with wr := wireOut out ++ b } ∧
        wireIn (out ++ [(.writeTls accept, .data b)]) = wireIn out := by
      intro n
      unfold fluxOf readOut written wireIn wireOut
      simp only [List.flatMap_append, List.flatMap_cons, List.flatMap_nil, List.append_nil, and_self]
    show IoFlow (fluxOf frag (out ++ [(.writeTls accept, .data (c.io.common.sendableTls.writeTo accept).2)]))
      (wireIn (out ++ [(.writeTls accept, .data (c.io.common.sendableTls.writeTo accept).2)])) _ _
    rw [(hcall _).1, (hcall _).2]
    refine ⟨R, ⟨h1.frag, h1.received, h1.chunks, ?_, h1.sent, h1.small, h1.recs, h1.data, h1.closing, h1.closed, h1.limit, h1.tidy⟩, h2⟩
    show List.flatMap _ c.io.common.log = wireOut out ++ (c.io.common.sendableTls.writeTo accept).2 ++
      (c.io.common.sendableTls.writeTo accept).1.chunks.flatten
    have hw : (c.io.common.sendableTls.writeTo accept).2 ++ (c.io.common.sendableTls.writeTo accept).1.chunks.flatten =
        c.io.common.sendableTls.chunks.flatten := by
      unfold VecBuf.writeTo
      split
      · rfl
      · simp only [consumeChunks_flatten]
        generalize c.io.common.sendableTls.chunks = cs
        have hp : (cs.take 64).flatten <+: cs.flatten := by
          conv_rhs => rw [← List.take_append_drop 64 cs, List.flatten_append]
          exact List.prefix_append _ _
        obtain ⟨t, ht⟩ := hp
        rw [← ht]
        rw [← List.take_append_of_le_length (l₂ := t) (Nat.min_le_right _ _), List.take_append_drop]
    rw [List.append_assoc, hw]
    exact h1.wire
  | sendCloseNotify =>
    refine quiet (c' := ({ c with io := { c.io with common := (sendWarning W 0 c.io.common).1 } } : Conn))
      (r := replyOf (sendWarning W 0 c.io.common).2) ?_ (by simp) (by simp) (by simp) (by simp)
    obtain ⟨R, h1, h2⟩ := h
    exact ⟨R, always_warning (F := { fluxOf frag out with recs := R }) W hf 0 _ h1, h2⟩
  | serverClosed =>
    refine quiet (c' := ({ c with io := { c.io with common := (ask W.close .close .backend c.io.common).1 } } : Conn))
      (r := replyOf (ask W.close .close .backend c.io.common).2) ?_ (by simp) (by simp) (by simp) (by simp)
    obtain ⟨R, h1, h2⟩ := h
    refine ⟨R, ?_, h2⟩
    have key : ∀ r, Flow { fluxOf frag out with recs := R } (isOk c.state) { c.io.common with log := c.io.common.log ++ [.close r] } :=
      fun r => h1.note ⟨rfl, fun _ => rfl, rfl, rfl, rfl, by simp⟩
    show Flow _ _ (ask W.close .close .backend c.io.common).1
    unfold ask
    simp only
    cases hr : W.close c.io.common.log <;> exact key _
  | enableDecryption b =>
    refine quiet (c' := ({ c with io := { c.io with common := (note (.enable b) c.io.common).1 } } : Conn))
      (r := .ok) ?_ (by simp) (by simp) (by simp) (by simp)
    obtain ⟨R, h1, h2⟩ := h
    exact ⟨R, h1.note ⟨rfl, fun _ => rfl, rfl, rfl, rfl, by simp⟩, h2⟩

theorem whole_new {c0 : Conn} (h : Conn.new cfg = .ok c0) : FragOk c0.io.common.fragmenter ∧ Whole c0.io.common.fragmenter c0 [] := by
  unfold Conn.new Common.new at h
  cases hf : Fragmenter.new cfg.maxFragmentSize with
  | none => rw [hf] at h; simp at h
  | some f =>
    rw [hf] at h
    simp only [Except.ok.injEq] at h
    subst h
    exact ⟨⟨_, hf⟩, [], ⟨rfl, rfl, by simp [VecBuf.new], rfl, rfl, by simp, rfl, rfl, False.elim, by simp, rfl,
      fun _ h => h.elim⟩, deframerInv_new⟩

theorem whole_run (W : World) {c0 : Conn} (h : Conn.new cfg = .ok c0) (calls : List Call) :
    Whole c0.io.common.fragmenter (c0.run cfg W calls).1 (c0.run cfg W calls).2 := by
  obtain ⟨h1, h2⟩ := whole_new h
  exact Sdk.runCalls_inv (P := Whole c0.io.common.fragmenter) h2 (fun s log call hs => whole_step W h1 s call hs) calls

end Tlsn.Client
