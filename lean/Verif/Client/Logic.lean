import Verif.Client.Conn
import Verif.Client.Spec
import Mathlib.Data.List.Induction

/-! # Reasoning about the client's functions -/

namespace Tlsn.Client

/-- The part of the state that the handshake depends on. -/
structure View where
  enc : Bool
  dec : Bool
  snd : Bool
  rcv : Bool
  log : List Ev

def Common.view (c : Common) : View := ⟨c.encrypting, c.decrypting, c.maySend, c.mayReceive, c.log⟩

def View.push (v : View) (e : Ev) : View := { v with log := v.log ++ [e] }

/-- From a view in `P`, `f` ends well in `Q`, or else in `E`. -/
def Triple {α : Type} (P : View → Prop) (f : M Common α) (Q : α → View → Prop) (E : View → Prop) : Prop :=
  ∀ c, P c.view → match f c with
    | (c', .ok a) => Q a c'.view
    | (c', _) => E c'.view

variable {α β : Type} {P P' : View → Prop} {Q Q' : α → View → Prop} {R : β → View → Prop} {E : View → Prop}

theorem Triple.bind {f : M Common α} {g : α → M Common β} (hf : Triple P f Q E) (hg : ∀ a, Triple (Q a) (g a) R E) :
    Triple P (f >>= g) R E := by
  intro c hc
  have h1 := hf c hc
  show match M.bind f g c with
    | (c', .ok a) => R a c'.view
    | (c', _) => E c'.view
  unfold M.bind
  revert h1
  rcases f c with ⟨c1, r⟩
  cases r with
  | ok a => intro h1; exact hg a c1 h1
  | err e => exact id
  | dropped => exact id
  | panicked => exact id

theorem Triple.pure {a : α} (h : ∀ v, P v → Q a v) : Triple P (Pure.pure a : M Common α) Q E := fun _ hc => h _ hc

theorem Triple.fail {e : CErr} (h : ∀ v, P v → E v) : Triple P (M.fail e : M Common α) Q E := fun _ hc => h _ hc

theorem Triple.panic (h : ∀ v, P v → E v) : Triple P (M.panic : M Common α) Q E := fun _ hc => h _ hc

theorem Triple.imp {f : M Common α} (h : Triple P f Q E) (hp : ∀ v, P' v → P v) (hq : ∀ a v, Q a v → Q' a v) :
    Triple P' f Q' E := by
  intro c hc
  have := h c (hp _ hc)
  revert this
  rcases f c with ⟨c1, r⟩
  cases r with
  | ok a => exact hq a _
  | err e => exact id
  | dropped => exact id
  | panicked => exact id

theorem Triple.pre {f : M Common α} (h : Triple P f Q E) (hp : ∀ v, P' v → P v) : Triple P' f Q E :=
  h.imp hp fun _ _ => id

theorem Triple.exists {ι : Sort*} {p : ι → View → Prop} {f : M Common α} (h : ∀ i, Triple (p i) f Q E) :
    Triple (fun v => ∃ i, p i v) f Q E := fun c ⟨i, hi⟩ => h i c hi

theorem Triple.fact {p : Prop} {f : M Common α} (h : p → Triple P f Q E) : Triple (fun v => P v ∧ p) f Q E :=
  fun c hc => h hc.2 c hc.1

/-- `M.get` with what follows. -/
theorem Triple.get {g : Common → M Common β} (h : ∀ c, P c.view → Triple P (g c) R E) : Triple P (M.get >>= g) R E :=
  fun c hc => h c hc c hc

theorem Triple.note {e : Ev} {Q : Unit → View → Prop} (h : ∀ v, P v → Q () (v.push e)) : Triple P (Tlsn.Client.note e) Q E :=
  fun _ hc => h _ hc

theorem Triple.modify {g : Common → Common} {Q : Unit → View → Prop} (h : ∀ c, P c.view → Q () (g c).view) :
    Triple P (M.modify g) Q E := fun c hc => h c hc

theorem Triple.ask {r : List Ev → Reply α} {ev : Reply α → Ev} {toErr : Nat → CErr}
    (hok : ∀ v a, P v → Q a (v.push (ev (.ok a)))) (hbad : ∀ v x, P v → (∀ a, x ≠ .ok a) → E (v.push (ev x))) :
    Triple P (Tlsn.Client.ask r ev toErr) Q E := by
  intro c hc
  unfold Tlsn.Client.ask
  have h1 := hok c.view
  have h2 := hbad c.view
  simp only
  cases hr : r c.log with
  | ok a => exact h1 a hc
  | failed code => exact h2 (.failed code) hc (by simp)
  | dropped => exact h2 .dropped hc (by simp)
  | panicked => exact h2 .panicked hc (by simp)

/-! ## Sending -/

theorem Triple.queueAll (ms : List OpaqueMessage) {Q : Unit → View → Prop} (h : ∀ v, P v → Q () v) :
    Triple P (Tlsn.Client.queueAll ms) Q E := by
  induction ms with
  | nil => exact Triple.pure h
  | cons m ms ih => exact Triple.bind (Q := fun _ => P) (Triple.modify fun c hc => hc) fun _ => ih

theorem Triple.pushAll (W : World) (ms : List OpaqueMessage) {Q : Unit → View → Prop}
    (hs : ∀ m ∈ ms, ∀ v r, P v → P (v.push (.pushOut m r))) (hq : ∀ v, P v → Q () v) (he : ∀ v, P v → E v) :
    Triple P (Tlsn.Client.pushAll W ms) Q E := by
  induction ms with
  | nil => exact Triple.pure hq
  | cons m ms ih =>
    exact Triple.bind (Q := fun _ => P) (Triple.ask (fun v a hv => hs m (by simp) v _ hv)
      fun v x hv _ => he _ (hs m (by simp) v _ hv)) fun _ => ih fun m' hm' => hs m' (by simp [hm'])

theorem fragment_typ (f : Fragmenter) (m : OpaqueMessage) : ∀ x ∈ f.fragment m, x.typ = m.typ := by
  intro x hx
  unfold Fragmenter.fragment at hx
  split at hx
  · simp at hx; rw [hx]
  · simp only [List.mem_map] at hx
    obtain ⟨_, _, rfl⟩ := hx
    rfl

theorem Triple.sendClear (W : World) (v : ProtocolVersion) (m : MessagePayload) {Q : Unit → View → Prop}
    (h : ∀ x, P x → Q () (x.push (.clear m))) : Triple P (sendMsg W v m false) Q E := by
  unfold sendMsg
  refine Triple.get fun c hc => ?_
  simp only [Bool.false_eq_true, if_false]
  exact Triple.bind (Q := fun _ => Q ()) (Triple.note h) fun _ => Triple.queueAll _ fun _ => id

theorem Triple.sendProtect (W : World) (v : ProtocolVersion) (m : MessagePayload) {Q : Unit → View → Prop} (I : View → Prop)
    (h : ∀ x, P x → I (x.push (.protect m)))
    (hs : ∀ o : OpaqueMessage, o.typ = m.contentType → ∀ x r, I x → I (x.push (.pushOut o r)))
    (hq : ∀ x, I x → Q () x) (he : ∀ x, I x → E x) : Triple P (sendMsg W v m true) Q E := by
  unfold sendMsg
  refine Triple.get fun c hc => ?_
  simp only [if_true]
  refine Triple.bind (Q := fun _ => I) (Triple.note h) fun _ => Triple.pushAll W _ (fun o ho => ?_) hq he
  exact hs o (fragment_typ _ _ o ho)

/-! ## Histories -/

theorem significant_append (a b : List Ev) : significant (a ++ b) = significant a ++ significant b := List.filter_append ..

theorem transcriptOf_append (a b : List Ev) : transcriptOf (a ++ b) = transcriptOf a ++ transcriptOf b := List.flatMap_append ..

theorem mem_significant {log : List Ev} {e : Ev} (h : e.significant = true) : e ∈ significant log ↔ e ∈ log := by
  simp [significant, h]

theorem Good.snoc {cfg : ClientCfg} {log : List Ev} {e : Ev} (h : Good cfg log) (he : Allowed cfg log e) :
    Good cfg (log ++ [e]) := by
  intro pre x post hp
  rcases List.eq_nil_or_concat' post with rfl | ⟨post', y, rfl⟩
  · have := List.append_inj' hp rfl
    obtain ⟨rfl, h2⟩ := this
    cases h2
    exact he
  · rw [show pre ++ x :: (post' ++ [y]) = (pre ++ x :: post') ++ [y] by simp] at hp
    obtain ⟨h1, -⟩ := List.append_inj' hp rfl
    exact h pre x post' h1

theorem Good.nil (cfg : ClientCfg) : Good cfg [] := by
  intro pre e post h
  simp at h

/-- What holds of a connection whether or not it has failed. -/
structure Weak (cfg : ClientCfg) (v : View) : Prop where
  good : Good cfg v.log
  enc : v.enc = true → ∃ d : Session, d.ServerOk cfg ∧ d.upToPrepared cfg <+: significant v.log
  plain : v.enc = false → ∀ hs, Ev.prepare hs (.ok ()) ∉ v.log
  traffic : v.snd = true → ∃ d : Session, d.ServerOk cfg ∧ d.script cfg <+: significant v.log

theorem Weak.push {cfg : ClientCfg} {v : View} {e : Ev} (h : Weak cfg v) (he : Allowed cfg v.log e)
    (hp : ∀ hs, e ≠ .prepare hs (.ok ())) : Weak cfg (v.push e) := by
  refine ⟨h.good.snoc he, fun h1 => ?_, fun h1 hs h2 => ?_, fun h1 => ?_⟩
  · obtain ⟨d, hd, hd2⟩ := h.enc h1
    exact ⟨d, hd, by rw [View.push, significant_append]; exact hd2.trans (List.prefix_append _ _)⟩
  · rcases List.mem_append.1 h2 with h2 | h2
    · exact h.plain h1 hs h2
    · simp at h2
      exact hp hs h2.symm
  · obtain ⟨d, hd, hd2⟩ := h.traffic h1
    exact ⟨d, hd, by rw [View.push, significant_append]; exact hd2.trans (List.prefix_append _ _)⟩

/-- Nothing is disclosed by other messages. -/
def Plain (m : MessagePayload) : Prop :=
  (∀ typ chain, m ≠ .handshake ⟨typ, .certificate chain⟩) ∧ (∀ typ dss, m ≠ .handshake ⟨typ, .certificateVerify dss⟩)

theorem Plain.disclosed {cfg : ClientCfg} {m : MessagePayload} (h : Plain m) (pre : List Ev) : Disclosed cfg pre m :=
  ⟨fun t c e => absurd e (h.1 t c), fun t c e => absurd e (h.2 t c)⟩

theorem Weak.alertClear {cfg : ClientCfg} {v : View} (h : Weak cfg v) (henc : v.enc = false) (m : MessagePayload) (hm : Plain m) :
    Weak cfg (v.push (.clear m)) := h.push ⟨h.plain henc, hm.disclosed _⟩ (by simp)

theorem Weak.protect {cfg : ClientCfg} {v : View} (h : Weak cfg v) (henc : v.enc = true) (m : MessagePayload) :
    Weak cfg (v.push (.protect m)) := h.push (h.enc henc) (by simp)

theorem Weak.pushOut {cfg : ClientCfg} {v : View} (h : Weak cfg v) (henc : v.enc = true) (m : OpaqueMessage) (r : Reply Unit)
    (hm : m.typ ≠ .applicationData) : Weak cfg (v.push (.pushOut m r)) :=
  h.push ⟨fun h' => absurd h' hm, h.enc henc⟩ (by simp)

/-- A predicate that alerts leave alone. -/
structure Stable (cfg : ClientCfg) (P : View → Prop) : Prop where
  weak : ∀ v, P v → Weak cfg v
  push : ∀ v e, P v → e.significant = false → Allowed cfg v.log e → P (v.push e)

theorem Stable.clear {cfg : ClientCfg} {P : View → Prop} (h : Stable cfg P) {v : View} (hv : P v) (henc : v.enc = false)
    (l d : UInt8) : P (v.push (.clear (.alert l d))) := h.push _ _ hv rfl ⟨(h.weak _ hv).plain henc, Plain.disclosed ⟨by simp, by simp⟩ _⟩

theorem stable_weak (cfg : ClientCfg) : Stable cfg (Weak cfg) :=
  ⟨fun _ h => h, fun v e h hs ha => h.push ha fun hs' h' => by subst h'; simp [Ev.significant] at hs⟩

/-- An alert. -/
theorem Triple.alert {cfg : ClientCfg} (W : World) (hP : Stable cfg P) (hE : ∀ v, P v → E v) (l d : UInt8)
    {Q : Unit → View → Prop} (hQ : ∀ v, P v → Q () v) (c : Common) :
    Triple (fun v => P v ∧ v.enc = c.encrypting) (sendMsg W .tls12 (.alert l d) c.encrypting) Q E := by
  cases hc : c.encrypting with
  | false => exact Triple.sendClear W _ _ fun x hx => hQ _ (hP.clear hx.1 hx.2 l d)
  | true =>
    refine Triple.sendProtect W _ _ (fun v => P v ∧ v.enc = true) (fun x hx => ⟨?_, hx.2⟩) (fun o ho x r hx => ⟨?_, hx.2⟩)
      (fun x hx => hQ x hx.1) fun x hx => hE x hx.1
    · exact hP.push _ _ hx.1 rfl ((hP.weak _ hx.1).enc hx.2)
    · exact hP.push _ _ hx.1 rfl ⟨fun h => absurd (ho.symm.trans h) (by simp [MessagePayload.contentType]), (hP.weak _ hx.1).enc hx.2⟩

theorem Triple.sendFatal {cfg : ClientCfg} (W : World) (hP : Stable cfg P) (hE : ∀ v, P v → E v) (d : UInt8)
    {Q : Unit → View → Prop} (hQ : ∀ v, P v → Q () v) : Triple P (Tlsn.Client.sendFatal W d) Q E := by
  unfold Tlsn.Client.sendFatal
  intro c hc
  refine Triple.get (P := fun v => P v ∧ v.enc = c.encrypting) (fun c' hc' => ?_) c ⟨hc, rfl⟩
  have : c'.encrypting = c.encrypting := hc'.2
  rw [this]
  exact Triple.bind (Q := fun _ => Q ()) (Triple.alert W hP hE 2 d hQ c) fun _ => Triple.modify fun _ h => h

theorem Triple.sendWarning {cfg : ClientCfg} (W : World) (hP : Stable cfg P) (hE : ∀ v, P v → E v) (d : UInt8)
    {Q : Unit → View → Prop} (hQ : ∀ v, P v → Q () v) : Triple P (Tlsn.Client.sendWarning W d) Q E := by
  unfold Tlsn.Client.sendWarning
  intro c hc
  refine Triple.get (P := fun v => P v ∧ v.enc = c.encrypting) (fun c' hc' => ?_) c ⟨hc, rfl⟩
  have : c'.encrypting = c.encrypting := hc'.2
  rw [this]
  exact Triple.alert W hP hE 1 d hQ c

theorem Triple.abort {cfg : ClientCfg} (W : World) (hP : ∀ v, P v → Weak cfg v) (d : UInt8) (e : CErr) :
    Triple P (Tlsn.Client.abort W d e : M Common α) Q (Weak cfg) :=
  (Triple.bind (Q := fun _ => Weak cfg) (Triple.sendFatal W (stable_weak cfg) (fun _ => id) d fun _ => id)
    fun _ => Triple.fail fun _ => id).pre hP

theorem Triple.checkAligned {cfg : ClientCfg} (W : World) (hP : ∀ v, P v → Weak cfg v) {Q : Unit → View → Prop}
    (hQ : ∀ v, P v → Q () v) : Triple P (Tlsn.Client.checkAligned W) Q (Weak cfg) := by
  unfold Tlsn.Client.checkAligned
  refine Triple.get fun c hc => ?_
  split
  · exact Triple.pure hQ
  · exact Triple.abort W hP _ _

end Tlsn.Client
