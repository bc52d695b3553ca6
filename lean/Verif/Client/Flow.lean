import Verif.Client.FlowSpec
import Verif.Tls.FrameProps
import Verif.Tls.VecBufProps
import Verif.Tls.HandshakeParse

/-! # The flow of data through a connection -/

namespace Tlsn.Client

/-- What the invariant is about: the fragmenter, the bytes read and written so far, the records taken from the stream, application
data that is being processed, whether the server's closing alert is being processed, and whether all pending data has been
given to the leader. -/
structure Flux where
  frag : Fragmenter
  rd : Bytes
  wr : Bytes
  acc : Bytes
  recs : List OpaqueMessage
  inflight : Bytes
  closing : Prop
  tidy : Prop

/-- The bytes of an event on the wire. -/
def Ev.wire (f : Fragmenter) : Ev → Bytes
  | .clear m => (f.fragment (plainOf (headerVersion m) m)).flatMap OpaqueMessage.encode
  | .nextOut (.ok (some m)) => m.encode
  | _ => []

def dataIn (log : List Ev) : Bytes := (heardOf log).flatMap dataOf

/-- The invariant; `strict` while nothing has failed. -/
structure Flow (F : Flux) (strict : Bool) (c : Common) : Prop where
  frag : c.fragmenter = F.frag
  received : deliveredOf c.log = F.rd ++ c.received.chunks.flatten
  chunks : ∀ x ∈ c.received.chunks, x ≠ []
  wire : c.log.flatMap (Ev.wire F.frag) = F.wr ++ c.sendableTls.chunks.flatten
  sent : if strict then sentOf c.log ++ c.sendable.chunks.flatten = F.acc else sentOf c.log <+: F.acc
  small : ∀ m r, Ev.pushOut m r ∈ c.log → m.payload.length ≤ F.frag.maxFrag
  recs : recordsOf c.log = F.recs
  data : if strict then deliveredOf c.log ++ F.inflight = dataIn c.log else deliveredOf c.log <+: dataIn c.log
  closing : F.closing → ∃ m ∈ heardOf c.log, IsClose m
  closed : c.closeNotify = true → ∃ m ∈ heardOf c.log, IsClose m
  limit : c.sendable.limit = some defaultBufferLimit
  tidy : strict = true → F.tidy → c.maySend = true → c.sendable.chunks = []

variable {F F' : Flux} {α β : Type} {c : Common}

theorem Flow.weaken {strict : Bool} (h : Flow F strict c) : Flow F false c := by
  cases strict with
  | false => exact h
  | true => exact ⟨h.frag, h.received, h.chunks, h.wire, ⟨_, h.sent⟩, h.small, h.recs, ⟨_, h.data⟩, h.closing, h.closed, h.limit, by simp⟩

/-- `f` takes `P` to `Q`, or to `E` if it does not end well. -/
def Run (P : Common → Prop) (f : M Common α) (Q E : Common → Prop) : Prop :=
  ∀ c, P c → match f c with
    | (c', .ok _) => Q c'
    | (c', _) => E c'

section
variable {P Q R E : Common → Prop}

theorem Run.bind {f : M Common α} {g : α → M Common β} (hf : Run P f Q E) (hg : ∀ a, Run Q (g a) R E) : Run P (f >>= g) R E := by
  intro c hc
  have h1 := hf c hc
  show match M.bind f g c with
    | (c', .ok a) => R c'
    | (c', _) => E c'
  unfold M.bind
  revert h1
  rcases f c with ⟨c1, r⟩
  cases r with
  | ok a => intro h1; exact hg a c1 h1
  | err e => exact id
  | dropped => exact id
  | panicked => exact id

theorem Run.pre {f : M Common α} {P' : Common → Prop} (h : Run P f Q E) (hp : ∀ c, P' c → P c) : Run P' f Q E :=
  fun c hc => h c (hp c hc)

end

/-- `f` keeps the invariant. -/
def KeepS (s : Bool) (F : Flux) (f : M Common α) : Prop := Run (Flow F s) f (Flow F s) (Flow F false)

abbrev Keep (F : Flux) (f : M Common α) : Prop := KeepS true F f

variable {s : Bool}

theorem Keep.bind {f : M Common α} {g : α → M Common β} (hf : KeepS s F f) (hg : ∀ a, KeepS s F (g a)) : KeepS s F (f >>= g) :=
  Run.bind hf hg

theorem Keep.get {g : Common → M Common β} (hg : ∀ a, KeepS s F (g a)) : KeepS s F (M.get >>= g) := fun c hc => hg c c hc

theorem Keep.pure {a : α} : KeepS s F (Pure.pure a : M Common α) := fun _ hc => hc

theorem Keep.fail {e : CErr} : KeepS s F (M.fail e : M Common α) := fun _ hc => hc.weaken

theorem Keep.panic : KeepS s F (M.panic : M Common α) := fun _ hc => hc.weaken

/-- An event that none of the counts depends on. -/
structure Neutral (e : Ev) : Prop where
  delivered : e.delivered = []
  wire : ∀ f, e.wire f = []
  sent : e.sent = []
  record : e.record = []
  heard : e.heard = []
  out : ∀ m r, e ≠ .pushOut m r

theorem flatMap_snoc {γ δ : Type} (f : γ → List δ) (l : List γ) (x : γ) : (l ++ [x]).flatMap f = l.flatMap f ++ f x := by
  simp

theorem heard_mono {l : List Ev} {e : Ev} {p : OpaqueMessage → Prop} (h : ∃ m ∈ heardOf l, p m) : ∃ m ∈ heardOf (l ++ [e]), p m := by
  obtain ⟨m, hm, hp⟩ := h
  exact ⟨m, by rw [heardOf, flatMap_snoc]; exact List.mem_append_left _ hm, hp⟩

theorem Flow.note {strict : Bool} {e : Ev} (h : Flow F strict c) (he : Neutral e) :
    Flow F strict { c with log := c.log ++ [e] } := by
  have hheard : heardOf (c.log ++ [e]) = heardOf c.log := by rw [heardOf, flatMap_snoc, he.heard, List.append_nil]; rfl
  refine ⟨h.frag, ?_, h.chunks, ?_, ?_, ?_, ?_, ?_, fun hc => ?_, fun hc => ?_, h.limit, h.tidy⟩
  · show deliveredOf _ = _
    rw [deliveredOf, flatMap_snoc, he.delivered, List.append_nil]
    exact h.received
  · show List.flatMap _ _ = _
    rw [flatMap_snoc, he.wire, List.append_nil]
    exact h.wire
  · have : sentOf (c.log ++ [e]) = sentOf c.log := by rw [sentOf, flatMap_snoc, he.sent, List.append_nil]; rfl
    rw [this]
    exact h.sent
  · intro m r hm
    rcases List.mem_append.1 hm with hm | hm
    · exact h.small m r hm
    · simp only [List.mem_singleton] at hm
      exact absurd hm.symm (he.out m r)
  · show recordsOf _ = _
    rw [recordsOf, flatMap_snoc, he.record, List.append_nil]
    exact h.recs
  · have h1 : deliveredOf (c.log ++ [e]) = deliveredOf c.log := by
      rw [deliveredOf, flatMap_snoc, he.delivered, List.append_nil]; rfl
    have h2 : dataIn (c.log ++ [e]) = dataIn c.log := by rw [dataIn, hheard]; rfl
    rw [h1, h2]
    exact h.data
  · exact heard_mono (h.closing hc)
  · exact heard_mono (h.closed hc)

theorem Keep.note {e : Ev} (he : Neutral e) : KeepS s F (Tlsn.Client.note e) := fun _ hc => hc.note he

theorem Keep.ask {r : List Ev → Reply α} {ev : Reply α → Ev} {toErr : Nat → CErr} (he : ∀ x, Neutral (ev x)) :
    KeepS s F (Tlsn.Client.ask r ev toErr) := by
  intro c hc
  unfold Tlsn.Client.ask
  simp only
  cases hr : r c.log with
  | ok a => exact hc.note (he _)
  | failed code => exact (hc.note (he _)).weaken
  | dropped => exact (hc.note (he _)).weaken
  | panicked => exact (hc.note (he _)).weaken

/-- A change of other fields. -/
theorem Keep.modify {g : Common → Common} (h : ∀ c, (g c).fragmenter = c.fragmenter ∧ (g c).received = c.received ∧
    (g c).sendableTls = c.sendableTls ∧ (g c).sendable = c.sendable ∧ (g c).log = c.log ∧ (g c).closeNotify = c.closeNotify ∧
    (g c).maySend = c.maySend) :
    KeepS s F (M.modify g) := by
  intro c hc
  obtain ⟨h1, h2, h3, h4, h5, h6, h7⟩ := h c
  show Flow F s (g c)
  refine ⟨?_, ?_, ?_, ?_, ?_, ?_, ?_, ?_, ?_, ?_, ?_, ?_⟩
  · rw [h1]; exact hc.frag
  · rw [h2, h5]; exact hc.received
  · rw [h2]; exact hc.chunks
  · rw [h3, h5]; exact hc.wire
  · rw [h4, h5]; exact hc.sent
  · rw [h5]; exact hc.small
  · rw [h5]; exact hc.recs
  · rw [h5]; exact hc.data
  · rw [h5]; exact hc.closing
  · rw [h5, h6]; exact hc.closed
  · rw [h4]; exact hc.limit
  · rw [h4, h7]; exact hc.tidy

/-! ## Sending -/

theorem queueAll_eq (ms : List OpaqueMessage) (c : Common) : ∃ b : VecBuf,
    b.chunks.flatten = c.sendableTls.chunks.flatten ++ ms.flatMap OpaqueMessage.encode ∧
    queueAll ms c = ({ c with sendableTls := b }, .ok ()) := by
  induction ms generalizing c with
  | nil => exact ⟨c.sendableTls, by simp, rfl⟩
  | cons m ms ih =>
    obtain ⟨b, h1, h2⟩ := ih { c with sendableTls := (c.sendableTls.append m.encode).1 }
    refine ⟨b, ?_, ?_⟩
    · rw [h1, append_flatten]
      simp
    · show queueAll ms { c with sendableTls := (c.sendableTls.append m.encode).1 } = _
      rw [h2]

theorem keep_clear (W : World) (v : ProtocolVersion) (m : MessagePayload) (hv : v = headerVersion m) :
    KeepS s F (sendMsg W v m false) := by
  subst hv
  intro c hc
  obtain ⟨b, h1, h2⟩ := queueAll_eq (c.fragmenter.fragment (plainOf (headerVersion m) m)) { c with log := c.log ++ [.clear m] }
  have : sendMsg W (headerVersion m) m false c = ({ c with log := c.log ++ [.clear m], sendableTls := b }, .ok ()) := h2
  rw [this]
  have hn : ∀ f : Ev → List Byte, f (.clear m) = [] → (c.log ++ [Ev.clear m]).flatMap f = c.log.flatMap f := by
    intro f hf
    rw [flatMap_snoc, hf, List.append_nil]
  have hh : heardOf (c.log ++ [.clear m]) = heardOf c.log := by
    rw [heardOf, flatMap_snoc]; simp [Ev.heard, heardOf]
  refine ⟨hc.frag, ?_, hc.chunks, ?_, ?_, ?_, ?_, ?_, fun h => ?_, fun h => ?_, hc.limit, hc.tidy⟩
  · exact (hn Ev.delivered rfl).trans hc.received
  · show List.flatMap _ _ = _
    rw [flatMap_snoc, hc.wire]
    show _ = F.wr ++ b.chunks.flatten
    rw [h1, hc.frag, List.append_assoc]
    rfl
  · dsimp only
    rw [show sentOf (c.log ++ [.clear m]) = sentOf c.log from hn Ev.sent rfl]
    exact hc.sent
  · intro m' r hm
    rcases List.mem_append.1 hm with hm | hm
    · exact hc.small m' r hm
    · simp at hm
  · show recordsOf _ = _
    rw [recordsOf, flatMap_snoc]
    simpa [Ev.record, recordsOf] using hc.recs
  · dsimp only
    rw [show deliveredOf (c.log ++ [.clear m]) = deliveredOf c.log from hn Ev.delivered rfl, dataIn, hh]
    exact hc.data
  · exact heard_mono (hc.closing h)
  · exact heard_mono (hc.closed h)

/-- A push of a fragment. -/
theorem Flow.pushOut {strict : Bool} (m : OpaqueMessage) (r : Reply Unit) (h : Flow F strict c)
    (hs : m.payload.length ≤ F.frag.maxFrag)
    (hd : ∀ x : VecBuf, x = c.sendable → if strict then sentOf c.log ++ dataOf m ++ x.chunks.flatten = F.acc
      else sentOf c.log ++ dataOf m <+: F.acc) :
    Flow F strict { c with log := c.log ++ [.pushOut m r] } := by
  have hn : ∀ f : Ev → List Byte, f (.pushOut m r) = [] → (c.log ++ [Ev.pushOut m r]).flatMap f = c.log.flatMap f := by
    intro f hf
    rw [flatMap_snoc, hf, List.append_nil]
  have hh : heardOf (c.log ++ [.pushOut m r]) = heardOf c.log := by
    rw [heardOf, flatMap_snoc]; simp [Ev.heard, heardOf]
  refine ⟨h.frag, ?_, h.chunks, ?_, ?_, ?_, ?_, ?_, fun hc => ?_, fun hc => ?_, h.limit, h.tidy⟩
  · exact (hn Ev.delivered rfl).trans h.received
  · exact (hn _ rfl).trans h.wire
  · have : sentOf (c.log ++ [.pushOut m r]) = sentOf c.log ++ dataOf m := by rw [sentOf, flatMap_snoc]; rfl
    rw [this]
    exact hd c.sendable rfl
  · intro m' r' hm
    rcases List.mem_append.1 hm with hm | hm
    · exact h.small m' r' hm
    · simp only [List.mem_singleton, Ev.pushOut.injEq] at hm
      rw [hm.1]
      exact hs
  · show recordsOf _ = _
    rw [recordsOf, flatMap_snoc]
    simpa [Ev.record, recordsOf] using h.recs
  · have h1 : deliveredOf (c.log ++ [.pushOut m r]) = deliveredOf c.log := hn Ev.delivered rfl
    have h2 : dataIn (c.log ++ [.pushOut m r]) = dataIn c.log := by rw [dataIn, hh]; rfl
    rw [h1, h2]
    exact h.data
  · exact heard_mono (h.closing hc)
  · exact heard_mono (h.closed hc)

/-- The fragmenter of the connection was made by `new`. -/
def FragOk (f : Fragmenter) : Prop := ∃ size, Fragmenter.new size = some f

theorem pushAll_other (W : World) (ms : List OpaqueMessage) (hs : ∀ m ∈ ms, m.payload.length ≤ F.frag.maxFrag)
    (ht : ∀ m ∈ ms, m.typ ≠ .applicationData) : KeepS s F (pushAll W ms) := by
  induction ms with
  | nil => exact Keep.pure
  | cons m ms ih =>
    refine Keep.bind ?_ fun _ => ih (fun x hx => hs x (by simp [hx])) fun x hx => ht x (by simp [hx])
    have hd : dataOf m = [] := by rw [dataOf, if_neg (ht m (by simp))]
    have key : ∀ c r, Flow F s c → Flow F s { c with log := c.log ++ [.pushOut m r] } := by
      intro c r hc
      refine hc.pushOut m r (hs m (by simp)) fun x hx => ?_
      subst hx
      simpa [hd] using hc.sent
    intro c hc
    unfold ask
    simp only
    cases hr : W.pushOut c.log m with
    | ok a => exact key c _ hc
    | failed code => exact (key c _ hc).weaken
    | dropped => exact (key c _ hc).weaken
    | panicked => exact (key c _ hc).weaken

theorem fragment_small {f : Fragmenter} (hf : FragOk f) (m : OpaqueMessage) :
    ∀ x ∈ f.fragment m, x.typ = m.typ ∧ x.payload.length ≤ f.maxFrag := by
  obtain ⟨size, hf⟩ := hf
  intro x hx
  obtain ⟨h1, -, h3, -⟩ := (C38_fragment size f hf m).2.1 x hx
  exact ⟨h1, h3⟩

theorem keep_protect (W : World) (hf : FragOk F.frag) (v : ProtocolVersion) (m : MessagePayload)
    (hm : m.contentType ≠ .applicationData) : KeepS s F (sendMsg W v m true) := by
  intro c hc
  have : KeepS s F (note (.protect m) >>= fun _ => pushAll W (c.fragmenter.fragment (plainOf v m))) := by
    refine Keep.bind (Keep.note ⟨rfl, fun _ => rfl, rfl, rfl, rfl, by simp⟩) fun _ => ?_
    rw [hc.frag]
    exact pushAll_other W _ (fun x hx => (fragment_small hf _ x hx).2)
      fun x hx => by rw [(fragment_small hf _ x hx).1]; exact hm
  exact this c hc

theorem keep_alert (W : World) (hf : FragOk F.frag) (l d : UInt8) (b : Bool) : KeepS s F (sendMsg W .tls12 (.alert l d) b) := by
  cases b with
  | false => exact keep_clear W _ _ rfl
  | true => exact keep_protect W hf _ _ (by simp [MessagePayload.contentType])

theorem keep_fatal (W : World) (hf : FragOk F.frag) (d : UInt8) : KeepS s F (sendFatal W d) :=
  Keep.get fun _ => Keep.bind (keep_alert W hf 2 d _) fun _ => Keep.modify fun _ => ⟨rfl, rfl, rfl, rfl, rfl, rfl, rfl⟩

theorem keep_warning (W : World) (hf : FragOk F.frag) (d : UInt8) : KeepS s F (sendWarning W d) :=
  Keep.get fun _ => keep_alert W hf 1 d _

theorem keep_abort (W : World) (hf : FragOk F.frag) (d : UInt8) (e : CErr) : KeepS s F (abort W d e : M Common α) :=
  Keep.bind (keep_fatal W hf d) fun _ => Keep.fail

theorem keep_illegal (W : World) (hf : FragOk F.frag) (why : String) : KeepS s F (illegalParam W why : M Common α) :=
  keep_abort W hf _ _

theorem keep_aligned (W : World) (hf : FragOk F.frag) : KeepS s F (checkAligned W) := by
  refine Keep.get fun c => ?_
  split
  · exact Keep.pure
  · exact keep_abort W hf _ _

/-! ## Application data -/

/-- While fragments are pushed: what is left of them comes before what is pending. -/
def Between (F : Flux) (rest : Bytes) (c : Common) : Prop :=
  Flow F false c ∧ deliveredOf c.log ++ F.inflight = dataIn c.log ∧ sentOf c.log ++ rest ++ c.sendable.chunks.flatten = F.acc

theorem pushAll_data (W : World) (ht : ¬ F.tidy) (ms : List OpaqueMessage) (hs : ∀ m ∈ ms, m.typ = .applicationData ∧ m.payload.length ≤ F.frag.maxFrag) :
    Run (Between F (ms.map (·.payload)).flatten) (pushAll W ms) (Flow F true) (Flow F false) := by
  induction ms with
  | nil =>
    intro c hc
    obtain ⟨h, h1, h2⟩ := hc
    exact ⟨h.frag, h.received, h.chunks, h.wire, by simpa using h2, h.small, h.recs, h1, h.closing, h.closed, h.limit,
      fun _ h => absurd h ht⟩
  | cons m ms ih =>
    refine Run.bind (Q := Between F (ms.map (·.payload)).flatten) ?_ fun _ => ih fun x hx => hs x (by simp [hx])
    have hd : dataOf m = m.payload := by rw [dataOf, if_pos (hs m (by simp)).1]
    have key : ∀ c r, Between F ((m :: ms).map (·.payload)).flatten c →
        Between F (ms.map (·.payload)).flatten { c with log := c.log ++ [.pushOut m r] } := by
      intro c r ⟨h, h1, h2⟩
      simp only [List.map_cons, List.flatten_cons] at h2
      have hn : deliveredOf (c.log ++ [.pushOut m r]) = deliveredOf c.log := by
        rw [deliveredOf, flatMap_snoc]; simp [Ev.delivered, deliveredOf]
      have hh : heardOf (c.log ++ [.pushOut m r]) = heardOf c.log := by
        rw [heardOf, flatMap_snoc]; simp [Ev.heard, heardOf]
      have hsent : sentOf (c.log ++ [.pushOut m r]) = sentOf c.log ++ m.payload := by rw [sentOf, flatMap_snoc, ← hd]; rfl
      refine ⟨h.pushOut m r (hs m (by simp)).2 fun x _ => ?_, ?_, ?_⟩
      · refine ⟨(ms.map (·.payload)).flatten ++ c.sendable.chunks.flatten, ?_⟩
        rw [hd, ← h2]
        simp
      · show deliveredOf (c.log ++ [.pushOut m r]) ++ _ = dataIn (c.log ++ [.pushOut m r])
        rw [hn, h1, dataIn, dataIn, hh]
      · show sentOf (c.log ++ [.pushOut m r]) ++ _ ++ _ = _
        rw [hsent, ← h2]
        simp
    intro c hc
    unfold ask
    simp only
    cases hr : W.pushOut c.log m with
    | ok a => exact key c _ hc
    | failed code => exact (key c _ hc).1
    | dropped => exact (key c _ hc).1
    | panicked => exact (key c _ hc).1

theorem keep_flushLoop (W : World) (hf : FragOk F.frag) (ht : ¬ F.tidy) (n : Nat) : Keep F (flushLoop W n) := by
  induction n with
  | zero => exact Keep.pure
  | succ n ih =>
    intro c hc
    have hstep : flushLoop W (n + 1) c = (match c.sendable.pop with
      | (_, none) => (pure () : M Common Unit)
      | (sendable, some buf) => do
        M.modify fun c => { c with sendable }
        sendAppData W buf
        flushLoop W n) c := rfl
    rw [hstep]
    unfold VecBuf.pop
    cases hch : c.sendable.chunks with
    | nil => exact hc
    | cons buf cs =>
      have hb : Between F buf { c with sendable := { c.sendable with chunks := cs } } := by
        have hs := hc.sent
        simp only [if_true, hch, List.flatten_cons] at hs
        refine ⟨⟨hc.frag, hc.received, hc.chunks, hc.wire, ⟨_, hs⟩, hc.small, hc.recs, ⟨_, hc.data⟩, hc.closing,
          hc.closed, hc.limit, by simp⟩, hc.data, ?_⟩
        show sentOf c.log ++ buf ++ cs.flatten = _
        rw [← hs]
        simp
      refine Run.bind (P := Between F buf) (Q := Flow F true) ?_ (fun _ => ih) _ hb
      intro c1 hc1
      obtain ⟨size, hsize⟩ := hf
      have hfr := C38_fragment size F.frag hsize ⟨.applicationData, .tls12, buf⟩
      have := pushAll_data (F := F) W ht (F.frag.fragment ⟨.applicationData, .tls12, buf⟩)
        (fun x hx => ⟨(hfr.2.1 x hx).1, (hfr.2.1 x hx).2.2.1⟩) c1 (by rw [hfr.1]; exact hc1)
      rw [← hc1.1.frag] at this
      exact this

/-- Some data may be pending. -/
def Flux.untidy (F : Flux) : Flux := { F with tidy := False }

theorem Flow.untidy {c : Common} {s : Bool} (h : Flow F s c) : Flow F.untidy s c :=
  ⟨h.frag, h.received, h.chunks, h.wire, h.sent, h.small, h.recs, h.data, h.closing, h.closed, h.limit, fun _ h => h.elim⟩

theorem Flow.tidy' {c : Common} (h : Flow F.untidy true c) (ht : c.maySend = true → c.sendable.chunks = []) : Flow F true c :=
  ⟨h.frag, h.received, h.chunks, h.wire, h.sent, h.small, h.recs, h.data, h.closing, h.closed, h.limit, fun _ _ => ht⟩

theorem Flow.failed {c : Common} {s : Bool} (h : Flow F.untidy s c) : Flow F false c :=
  have h := h.weaken
  ⟨h.frag, h.received, h.chunks, h.wire, h.sent, h.small, h.recs, h.data, h.closing, h.closed, h.limit, by simp⟩

theorem pushAll_pending (W : World) (ms : List OpaqueMessage) (c : Common) : (pushAll W ms c).1.sendable = c.sendable := by
  induction ms generalizing c with
  | nil => rfl
  | cons m ms ih =>
    show (M.bind (ask (W.pushOut · m) (.pushOut m)) (fun _ => pushAll W ms) c).1.sendable = _
    unfold M.bind ask
    simp only
    cases W.pushOut c.log m with
    | ok a => exact ih _
    | _ => rfl

theorem flushLoop_empty (W : World) (n : Nat) (c : Common) (hn : c.sendable.chunks.length < n) :
    match flushLoop W n c with
    | (c', .ok _) => c'.sendable.chunks = []
    | _ => True := by
  induction n generalizing c with
  | zero => omega
  | succ n ih =>
    have hstep : flushLoop W (n + 1) c = (match c.sendable.pop with
      | (_, none) => (pure () : M Common Unit)
      | (sendable, some buf) => do
        M.modify fun c => { c with sendable }
        sendAppData W buf
        flushLoop W n) c := rfl
    rw [hstep]
    unfold VecBuf.pop
    cases hch : c.sendable.chunks with
    | nil => exact hch
    | cons buf cs =>
      have hp := pushAll_pending W (c.fragmenter.fragment ⟨.applicationData, .tls12, buf⟩)
        { c with sendable := { c.sendable with chunks := cs } }
      show match M.bind (pushAll W (c.fragmenter.fragment ⟨.applicationData, .tls12, buf⟩)) (fun _ => flushLoop W n)
          { c with sendable := { c.sendable with chunks := cs } } with
        | (c', .ok _) => c'.sendable.chunks = []
        | _ => True
      unfold M.bind
      revert hp
      rcases pushAll W (c.fragmenter.fragment ⟨.applicationData, .tls12, buf⟩)
        { c with sendable := { c.sendable with chunks := cs } } with ⟨c1, r⟩
      intro hp
      cases r with
      | ok a =>
        refine ih c1 ?_
        rw [show c1.sendable = _ from hp]
        rw [hch] at hn
        simp only [List.length_cons] at hn
        show cs.length < n
        omega
      | err e => trivial
      | dropped => trivial
      | panicked => trivial

/-- `flush_plaintext` leaves nothing pending. -/
theorem flush_spec (W : World) (hf : FragOk F.frag) : Run (Flow F.untidy true) (flushPlaintext W) (Flow F true) (Flow F false) := by
  intro c hc
  have hstep : flushPlaintext W c = (if c.maySend then flushLoop W (c.sendable.chunks.length + 1) else pure ()) c := rfl
  rw [hstep]
  cases hm : c.maySend with
  | false => exact hc.tidy' fun h => absurd (hm.symm.trans h) (by simp)
  | true =>
    have h1 := keep_flushLoop (F := F.untidy) W hf (fun h => h) (c.sendable.chunks.length + 1) c hc
    have h2 := flushLoop_empty W (c.sendable.chunks.length + 1) c (Nat.lt_succ_self _)
    simp only [if_true]
    revert h1 h2
    rcases flushLoop W (c.sendable.chunks.length + 1) c with ⟨c1, r⟩
    cases r with
    | ok a => exact fun h1 h2 => h1.tidy' fun _ => h2
    | err e => exact fun h1 _ => h1.failed
    | dropped => exact fun h1 _ => h1.failed
    | panicked => exact fun h1 _ => h1.failed

theorem keep_startTraffic (W : World) (hf : FragOk F.frag) : Keep F (startTraffic W) := by
  refine Keep.bind (Keep.modify fun _ => ⟨rfl, rfl, rfl, rfl, rfl, rfl, rfl⟩) fun _ =>
    Keep.bind (Keep.ask fun r => (⟨rfl, fun _ => rfl, rfl, rfl, rfl, by simp⟩ : Neutral (.startTraffic r))) fun _ =>
    Run.bind (Q := Flow F.untidy true) (fun c hc => ?_) fun _ => flush_spec W hf
  have h := hc.untidy
  exact ⟨h.frag, h.received, h.chunks, h.wire, h.sent, h.small, h.recs, h.data, h.closing, h.closed, h.limit, fun _ h => h.elim⟩

/-- Application data that is being processed becomes available. -/
theorem take_spec (p : Bytes) : Run (Flow { F with inflight := p } true) (takePlaintext p) (Flow { F with inflight := [] } true)
    (Flow { F with inflight := [] } false) := by
  intro c hc
  show Flow { F with inflight := [] } true { c with log := c.log ++ [.deliver p], received := (c.received.append p).1 }
  have hh : heardOf (c.log ++ [.deliver p]) = heardOf c.log := by
    rw [heardOf, flatMap_snoc]; simp [Ev.heard, heardOf]
  have hd : deliveredOf (c.log ++ [.deliver p]) = deliveredOf c.log ++ p := by rw [deliveredOf, flatMap_snoc]; rfl
  refine ⟨hc.frag, ?_, ?_, ?_, ?_, ?_, ?_, ?_, fun h => heard_mono (hc.closing h), fun h => heard_mono (hc.closed h), hc.limit,
    hc.tidy⟩
  · show deliveredOf (c.log ++ [.deliver p]) = F.rd ++ (c.received.append p).1.chunks.flatten
    have := hc.received
    simp only at this
    rw [hd, append_flatten, this, List.append_assoc]
  · show ∀ x ∈ (c.received.append p).1.chunks, x ≠ []
    unfold VecBuf.append
    cases p with
    | nil => exact hc.chunks
    | cons b p =>
      intro x hx
      simp only [List.isEmpty_cons, Bool.false_eq_true, if_false, List.mem_append, List.mem_singleton] at hx
      rcases hx with hx | rfl
      · exact hc.chunks x hx
      · simp
  · show List.flatMap _ (c.log ++ [.deliver p]) = _
    rw [flatMap_snoc]
    simpa [Ev.wire] using hc.wire
  · show sentOf (c.log ++ [.deliver p]) ++ _ = _
    rw [show sentOf (c.log ++ [.deliver p]) = sentOf c.log by rw [sentOf, flatMap_snoc]; simp [Ev.sent, sentOf]]
    exact hc.sent
  · intro m r hm
    rcases List.mem_append.1 hm with hm | hm
    · exact hc.small m r hm
    · simp at hm
  · show recordsOf (c.log ++ [.deliver p]) = _
    rw [recordsOf, flatMap_snoc]
    simpa [Ev.record, recordsOf] using hc.recs
  · show deliveredOf (c.log ++ [.deliver p]) ++ [] = dataIn (c.log ++ [.deliver p])
    rw [hd, dataIn, hh, List.append_nil]
    exact hc.data

end Tlsn.Client
