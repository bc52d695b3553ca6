import Verif.Session.Leader

/-! # What the messages to the follower say about application data: C71 -/

namespace Tlsn.Mpc

open Hmac Kex

/-! ## Specification -/

/-- Two calls that are the same, except for the contents of outgoing application data of the same length. -/
inductive SameButData : LCall × World → LCall × World → Prop
  | same (x : LCall × World) : SameButData x x
  | data (version : ProtocolVersion) (p q : Bytes) (w : World) (h : p.length = q.length) :
      SameButData (.pushOutgoing ⟨.applicationData, version, p⟩, w) (.pushOutgoing ⟨.applicationData, version, q⟩, w)

/-! ## The record layer -/

structure SameOp (a b : EncryptOp) : Prop where
  meta_ : ∃ p q, p.length = q.length ∧ a.plaintext = some p ∧ b = { a with plaintext := some q }

structure SameEnc (a b : EncryptedRecord) : Prop where
  typ : a.typ = b.typ
  tag : a.tag.isSome = b.tag.isSome

inductive SameState : RlState → RlState → Prop
  | init : SameState .init .init
  | online (o : Option Bytes) (s r s' r' : List Record) : SameState (.online o s r) (.online o s' r')
  | complete : SameState .complete .complete
  | error : SameState .error .error

theorem SameState.refl (s : RlState) : SameState s s := by cases s <;> constructor

/-- Two record layers that differ in plaintexts and what depends on them. -/
def SameLayer (a b : RecordLayer) : Prop :=
  ∃ eb ed st, b = { a with encryptBuffer := eb, encryptedBuffer := ed, state := st } ∧
    List.Forall₂ SameOp a.encryptBuffer eb ∧ List.Forall₂ SameEnc a.encryptedBuffer ed ∧ SameState a.state st

/-- Every operation of a leader has a plaintext of the right length. -/
def Known (a : RecordLayer) : Prop := ∀ op ∈ a.encryptBuffer, ∃ p, op.plaintext = some p

theorem SameEnc.refl (x : EncryptedRecord) : SameEnc x x := ⟨rfl, rfl⟩

theorem forall₂_self {α : Type} {R : α → α → Prop} (l : List α) (h : ∀ x ∈ l, R x x) : List.Forall₂ R l l := by
  induction l with
  | nil => exact .nil
  | cons x xs ih => exact .cons (h x List.mem_cons_self) (ih fun y hy => h y (List.mem_cons_of_mem _ hy))

theorem SameLayer.refl {a : RecordLayer} (h : Known a) : SameLayer a a := by
  refine ⟨_, _, _, rfl, forall₂_self _ fun op hop => ?_, forall₂_self _ fun x _ => SameEnc.refl x, SameState.refl _⟩
  obtain ⟨p, hp⟩ := h op hop
  exact ⟨p, p, rfl, hp, by rw [← hp]⟩

theorem SameOp.encryptOp {a b : EncryptOp} (h : SameOp a b) (e : Aead) : e.encryptOp b = e.encryptOp a := by
  obtain ⟨p, q, -, hp, rfl⟩ := h.meta_
  unfold Aead.encryptOp
  simp only
  rw [hp]
  simp

theorem SameOp.nonce {a b : EncryptOp} (h : SameOp a b) : b.nonce = a.nonce := by
  obtain ⟨p, q, -, hp, rfl⟩ := h.meta_
  rfl

theorem sameOps_encrypt {xs ys : List EncryptOp} (h : List.Forall₂ SameOp xs ys) (e : Aead) : e.encryptAll ys = e.encryptAll xs := by
  have h2 : ys.map (·.nonce) = xs.map (·.nonce) := by
    induction h with
    | nil => rfl
    | cons hx _ ih => rw [List.map_cons, List.map_cons, hx.nonce, ih]
  have h1 : ∀ e : Aead, e.encryptOps ys = e.encryptOps xs := by
    clear h2
    induction h with
    | nil => intro e; rfl
    | cons hx _ ih =>
      intro e
      simp only [Aead.encryptOps, hx.encryptOp, ih]
  unfold Aead.encryptAll
  rw [h1, h2]

theorem padBlocks_length_congr (a b : Bytes) (h : a.length = b.length) : (padBlocks a).length = (padBlocks b).length := by
  simp [padBlocks, h]

theorem buildGhashData_length_congr (a c d : Bytes) (h : c.length = d.length) :
    (buildGhashData a c).length = (buildGhashData a d).length := by
  unfold buildGhashData
  rw [List.length_append, List.length_append, List.length_append, List.length_append, beBytes_length, beBytes_length,
    padBlocks_length_congr _ _ h]

theorem SameOp.fits {a b : EncryptOp} (h : SameOp a b) (f : AeadFn) (peer : Nat → Bytes) :
    ghashFits b.aad (b.cipher f peer) = ghashFits a.aad (a.cipher f peer) := by
  obtain ⟨p, q, hl, hp, rfl⟩ := h.meta_
  have hc : (EncryptOp.cipher f peer { a with plaintext := some q }).length = (a.cipher f peer).length := by
    simp [EncryptOp.cipher, EncryptOp.input, hp, xorBytes, hl]
  unfold ghashFits
  rw [buildGhashData_length_congr _ _ _ hc]

theorem sameOps_fits {xs ys : List EncryptOp} (h : List.Forall₂ SameOp xs ys) (f : AeadFn) (peer : Nat → Bytes) :
    computeTagsRun f peer ys = computeTagsRun f peer xs := by
  unfold computeTagsRun
  induction h with
  | nil => rfl
  | cons hx _ ih => rw [List.all_cons, List.all_cons, hx.fits, ih]

theorem tagFor_isSome (op : EncryptOp) (f : AeadFn) (peer : Nat → Bytes) (role : Role) :
    (op.tagFor f peer role).isSome = decide (role = .leader) := by
  unfold EncryptOp.tagFor
  by_cases h : role = .leader
  · rw [if_pos h, Option.isSome_some, decide_eq_true h]
  · rw [if_neg h, Option.isSome_none, decide_eq_false h]

theorem sameOps_encrypted {xs ys : List EncryptOp} (h : List.Forall₂ SameOp xs ys) (f : AeadFn) (peer : Nat → Bytes) (role : Role) :
    List.Forall₂ SameEnc (xs.map (·.encrypted f peer role)) (ys.map (·.encrypted f peer role)) := by
  induction h with
  | nil => exact .nil
  | cons hx _ ih =>
    refine .cons ?_ ih
    obtain ⟨p, q, -, hp, rfl⟩ := hx.meta_
    exact ⟨rfl, (tagFor_isSome _ f peer role).trans (tagFor_isSome _ f peer role).symm⟩

theorem forall₂_append {α : Type} {R : α → α → Prop} {a b c d : List α} (h : List.Forall₂ R a b) (g : List.Forall₂ R c d) :
    List.Forall₂ R (a ++ c) (b ++ d) := by
  induction h with
  | nil => exact g
  | cons hx _ ih => exact .cons hx ih

theorem SameLayer.pushEncrypt {a b : RecordLayer} (h : SameLayer a b) (t : ContentType) (v : ProtocolVersion) (p q : Bytes)
    (hl : p.length = q.length) :
    SameLayer (a.pushEncrypt t v p.length (some p)).1 (b.pushEncrypt t v q.length (some q)).1 ∧
      (b.pushEncrypt t v q.length (some q)).2 = (a.pushEncrypt t v p.length (some p)).2 := by
  obtain ⟨eb, ed, st, rfl, h1, h2, h3⟩ := h
  have hlen := h1.length_eq
  unfold RecordLayer.pushEncrypt
  simp only [← hlen, ← hl]
  split
  · exact ⟨⟨_, _, _, rfl, h1, h2, h3⟩, rfl⟩
  · split
    · exact ⟨⟨_, _, _, rfl, h1, h2, h3⟩, rfl⟩
    · have e : ∀ x : Bytes, x.length = p.length → EncryptOp.new a.writeSeq t v p.length (some x) (beBytes 8 a.writeSeq)
          (makeTls12Aad a.writeSeq t v p.length) (modeOf t) = .ok ⟨a.writeSeq, t, v, p.length, some x, beBytes 8 a.writeSeq,
            makeTls12Aad a.writeSeq t v p.length, modeOf t⟩ := by
        intro x hx
        simp [EncryptOp.new, hx]
      rw [e p rfl, e q hl.symm]
      exact ⟨⟨_, _, _, rfl, forall₂_append h1 (.cons ⟨p, q, hl, rfl, rfl⟩ .nil), h2, h3⟩, rfl⟩

theorem SameLayer.pushDecrypt {a b : RecordLayer} (h : SameLayer a b) (t : ContentType) (v : ProtocolVersion) (n c g : Bytes) :
    SameLayer (a.pushDecrypt t v n c g).1 (b.pushDecrypt t v n c g).1 ∧ (b.pushDecrypt t v n c g).2 = (a.pushDecrypt t v n c g).2 := by
  obtain ⟨eb, ed, st, rfl, h1, h2, h3⟩ := h
  unfold RecordLayer.pushDecrypt
  simp only
  split
  · exact ⟨⟨_, _, _, rfl, h1, h2, h3⟩, rfl⟩
  · split
    · exact ⟨⟨_, _, _, rfl, h1, h2, h3⟩, rfl⟩
    · exact ⟨⟨_, _, _, rfl, h1, h2, h3⟩, rfl⟩

theorem SameLayer.nextDecrypted {a b : RecordLayer} (h : SameLayer a b) :
    SameLayer a.nextDecrypted.1 b.nextDecrypted.1 ∧ b.nextDecrypted.2 = a.nextDecrypted.2 := by
  obtain ⟨eb, ed, st, rfl, h1, h2, h3⟩ := h
  unfold RecordLayer.nextDecrypted
  simp only
  split
  · exact ⟨⟨_, _, _, rfl, h1, h2, h3⟩, rfl⟩
  · split
    · exact ⟨⟨_, _, _, rfl, h1, h2, h3⟩, rfl⟩
    · exact ⟨⟨_, _, _, rfl, h1, h2, h3⟩, rfl⟩

/-- The records that come out are there or not, and have a tag or not, in both. -/
theorem SameLayer.nextEncrypted {a b : RecordLayer} (h : SameLayer a b) :
    SameLayer a.nextEncrypted.1 b.nextEncrypted.1 ∧
      (a.nextEncrypted.2 = none ∧ b.nextEncrypted.2 = none ∨
        ∃ x y, a.nextEncrypted.2 = some x ∧ b.nextEncrypted.2 = some y ∧ x.tag.isSome = y.tag.isSome) := by
  obtain ⟨eb, ed, st, rfl, h1, h2, h3⟩ := h
  obtain ⟨role, ws, rs, enc, dec, state, started, sn, ro, rc, ms, mo, mr, ebuf, dbuf, edbuf, ddbuf⟩ := a
  simp only at h1 h2 h3
  unfold RecordLayer.nextEncrypted
  simp only
  cases h2 with
  | nil => exact ⟨⟨_, _, _, rfl, h1, .nil, h3⟩, Or.inl ⟨rfl, rfl⟩⟩
  | @cons x y xs ys hx hxs =>
      simp only [hx.typ]
      split
      · exact ⟨⟨_, _, _, rfl, h1, .cons hx hxs, h3⟩, Or.inl ⟨rfl, rfl⟩⟩
      · exact ⟨⟨_, _, _, rfl, h1, hxs, h3⟩, Or.inr ⟨_, _, rfl, rfl, hx.tag⟩⟩

theorem SameLayer.flushRun {a b : RecordLayer} (h : SameLayer a b) (k : SessionFns) (peer : Nat → Bytes) (env : FlushEnv)
    (o : Option Bytes) (s r s' r' : List Record) (xs ys : List EncryptOp) (hx : List.Forall₂ SameOp xs ys) (dops : List DecryptOp) :
    SameLayer (a.flushRun k peer env o s r xs dops).1 (b.flushRun k peer env o s' r' ys dops).1 ∧
      (b.flushRun k peer env o s' r' ys dops).2 = (a.flushRun k peer env o s r xs dops).2 := by
  obtain ⟨eb, ed, st, rfl, h1, h2, h3⟩ := h
  unfold RecordLayer.flushRun
  simp only [sameOps_encrypt hx, sameOps_fits hx]
  split
  · exact ⟨⟨_, _, _, rfl, h1, h2, h3⟩, rfl⟩
  · split
    · exact ⟨⟨_, _, _, rfl, h1, h2, .online ..⟩, rfl⟩
    · split
      · exact ⟨⟨_, _, _, rfl, h1, h2, .online ..⟩, rfl⟩
      · split
        · exact ⟨⟨_, _, _, rfl, h1, h2, .online ..⟩, rfl⟩
        · split
          · exact ⟨⟨_, _, _, rfl, h1, h2, .online ..⟩, rfl⟩
          · split
            · exact ⟨⟨_, _, _, rfl, h1, h2, .online ..⟩, rfl⟩
            · exact ⟨⟨_, _, _, rfl, h1, forall₂_append h2 (sameOps_encrypted hx _ _ _), .online ..⟩, rfl⟩

theorem SameLayer.flush {a b : RecordLayer} (h : SameLayer a b) (k : SessionFns) (peer : Nat → Bytes) (env : FlushEnv) (d : Bool) :
    SameLayer (a.flush k peer env d).1 (b.flush k peer env d).1 ∧ (b.flush k peer env d).2 = (a.flush k peer env d).2 := by
  obtain ⟨eb, ed, st, rfl, h1, h2, h3⟩ := h
  obtain ⟨role, ws, rs, enc, dec, state, started, sn, ro, rc, ms, mo, mr, ebuf, dbuf, edbuf, ddbuf⟩ := a
  simp only at h1 h2 h3
  unfold RecordLayer.flush
  simp only
  cases h3 with
  | init => exact ⟨⟨_, _, _, rfl, h1, h2, .init⟩, rfl⟩
  | complete => exact ⟨⟨_, _, _, rfl, h1, h2, .complete⟩, rfl⟩
  | error => exact ⟨⟨_, _, _, rfl, h1, h2, .error⟩, rfl⟩
  | online o s r s' r' =>
    simp only
    have he : eb.isEmpty = ebuf.isEmpty := by
      cases h1 <;> rfl
    split
    · exact ⟨⟨_, _, _, rfl, h1, h2, .online ..⟩, rfl⟩
    · generalize (if d = true then dbuf.length else firstAppData dbuf) = pos
      rw [he]
      split
      · exact ⟨⟨_, _, _, rfl, .nil, h2, .online ..⟩, rfl⟩
      · split
        · exact ⟨⟨_, _, _, rfl, .nil, h2, .online ..⟩, rfl⟩
        · refine SameLayer.flushRun ?_ k peer env o s r s' r' _ _ h1 _
          split
          · exact ⟨_, _, _, rfl, .nil, h2, .online ..⟩
          · exact ⟨_, _, _, rfl, .nil, h2, .online ..⟩

/-! ## The leader -/

theorem Core.flushPrf_rl (D : Deps) (c : Core) (rl : RecordLayer) :
    ({ c with rl } : Core).flushPrf D = (c.flushPrf D >>= fun c => .ok { c with rl }) := by
  unfold Core.flushPrf
  simp only
  cases Hmac.flushPrf D.sha D.rounds c.prf c.vm with
  | none => rfl
  | some r => cases r <;> rfl

theorem Core.afterClientVd_rl (D : Deps) (c : Core) (rl : RecordLayer) (h : Vector Byte 32) :
    ({ c with rl } : Core).afterClientVd D h = { c.afterClientVd D h with rl } := by
  unfold Core.afterClientVd
  simp only
  cases c.prf.setCfHash h.toList with
  | err e => rfl
  | panic => rfl
  | ok prf =>
    have e := Core.flushPrf_rl D { c with prf } rl
    simp only at e
    simp only [e]
    cases ({ c with prf } : Core).flushPrf D <;> rfl

theorem Core.afterServerVd_rl (D : Deps) (c : Core) (rl : RecordLayer) (h : Vector Byte 32) :
    ({ c with rl } : Core).afterServerVd D h = { c.afterServerVd D h with rl } := by
  unfold Core.afterServerVd
  simp only
  cases c.prf.setSfHash h.toList with
  | err e => rfl
  | panic => rfl
  | ok prf =>
    have e := Core.flushPrf_rl D { c with prf } rl
    simp only at e
    simp only [e]
    cases ({ c with prf } : Core).flushPrf D <;> rfl

theorem Core.clientVd_rl (D : Deps) (c : Core) (rl : RecordLayer) (h : Vector Byte 32) :
    ({ c with rl } : Core).clientVd D h = (c.clientVd D h >>= fun r => .ok ({ r.1 with rl }, r.2)) := by
  unfold Core.clientVd
  simp only
  cases liftPrf (c.prf.setCfHash h.toList) with
  | err e => rfl
  | panic => rfl
  | ok prf =>
    have e := Core.flushPrf_rl D { c with prf } rl
    simp only at e
    simp only [Outcome.bind_ok, e]
    cases ({ c with prf } : Core).flushPrf D with
    | err e => rfl
    | panic => rfl
    | ok c1 =>
      simp only [Outcome.bind_ok, Core.recv]
      cases c1.vm.recv c1.out.cfVd.val <;> rfl

theorem Core.serverVd_rl (D : Deps) (c : Core) (rl : RecordLayer) (h : Vector Byte 32) :
    ({ c with rl } : Core).serverVd D h = (c.serverVd D h >>= fun r => .ok ({ r.1 with rl }, r.2)) := by
  unfold Core.serverVd
  simp only
  cases liftPrf (c.prf.setSfHash h.toList) with
  | err e => rfl
  | panic => rfl
  | ok prf =>
    have e := Core.flushPrf_rl D { c with prf } rl
    simp only at e
    simp only [Outcome.bind_ok, e]
    cases ({ c with prf } : Core).flushPrf D with
    | err e => rfl
    | panic => rfl
    | ok c1 =>
      simp only [Outcome.bind_ok, Core.recv]
      cases c1.vm.recv c1.out.sfVd.val <;> rfl

theorem clientVd_after {D : Deps} {c c' : Core} {h : Vector Byte 32} {v : Bytes} (e : c.clientVd D h = .ok (c', v)) :
    c' = c.afterClientVd D h := by
  unfold Core.clientVd at e
  unfold Core.afterClientVd
  cases hp : c.prf.setCfHash h.toList with
  | err e' => rw [hp] at e; cases e
  | panic => rw [hp] at e; cases e
  | ok prf =>
    rw [hp] at e
    simp only [liftPrf, Outcome.bind_ok] at e
    simp only
    cases hf : ({ c with prf } : Core).flushPrf D with
    | err e' => rw [hf] at e; cases e
    | panic => rw [hf] at e; cases e
    | ok c1 =>
      rw [hf] at e
      simp only [Outcome.bind_ok] at e
      obtain ⟨x, -, hx⟩ := Outcome.bind_eq_ok.mp e
      cases hx
      rfl

theorem serverVd_after {D : Deps} {c c' : Core} {h : Vector Byte 32} {v : Bytes} (e : c.serverVd D h = .ok (c', v)) :
    c' = c.afterServerVd D h := by
  unfold Core.serverVd at e
  unfold Core.afterServerVd
  cases hp : c.prf.setSfHash h.toList with
  | err e' => rw [hp] at e; cases e
  | panic => rw [hp] at e; cases e
  | ok prf =>
    rw [hp] at e
    simp only [liftPrf, Outcome.bind_ok] at e
    simp only
    cases hf : ({ c with prf } : Core).flushPrf D with
    | err e' => rw [hf] at e; cases e
    | panic => rw [hf] at e; cases e
    | ok c1 =>
      rw [hf] at e
      simp only [Outcome.bind_ok] at e
      obtain ⟨x, -, hx⟩ := Outcome.bind_eq_ok.mp e
      cases hx
      rfl

/-- States in which nothing is sent any more. -/
def Silent : LState → Prop
  | .closed _ _ => True
  | .error => True
  | _ => False

theorem Silent.step {D : Deps} {cfg : Limits} {l : Leader} (h : Silent l.state) (w : World) (c : LCall) :
    Silent (l.step D cfg w c).1.state ∧ (l.step D cfg w c).2.1 = [] := by
  obtain ⟨st, d⟩ := l
  cases st with
  | init => cases h
  | setup => cases h
  | ready => cases h
  | active => cases h
  | error =>
    cases c <;> exact ⟨trivial, rfl⟩
  | closed rl t =>
    cases c <;> try exact ⟨trivial, rfl⟩
    · simp only [Leader.step, Leader.nextIncoming, LState.layer]
      cases rl.nextDecrypted with
      | mk rl o =>
        cases o with
        | none => exact ⟨trivial, rfl⟩
        | some r =>
          simp only
          cases r.plaintext <;> exact ⟨trivial, rfl⟩
    · simp only [Leader.step, Leader.nextOutgoing, LState.layer]
      cases rl.nextEncrypted with
      | mk rl o =>
        cases o with
        | none => exact ⟨trivial, rfl⟩
        | some r =>
          simp only
          cases r.tag <;> exact ⟨trivial, rfl⟩

/-- States with the same behaviour as far as the messages go. -/
inductive RelState : LState → LState → Prop
  | init (sk : Nat) (vm : Vm) : RelState (.init sk vm) (.init sk vm)
  | setup (c : Core) (r : Vector Byte 32) (h : c.rl.encryptBuffer = []) : RelState (.setup c r) (.setup c r)
  | ready (c : Core) (r : Vector Byte 32) (h : c.rl.encryptBuffer = []) : RelState (.ready c r) (.ready c r)
  | active (a : Active) (rl : RecordLayer) (h : SameLayer a.core.rl rl) :
      RelState (.active a) (.active { a with core := { a.core with rl } })
  | quiet {s s' : LState} (h : Silent s) (h' : Silent s') : RelState s s'

theorem SameLayer.empty {a b : RecordLayer} (h : SameLayer a b) : wantsFlush b = wantsFlush a := by
  obtain ⟨eb, ed, st, rfl, h1, h2, h3⟩ := h
  obtain ⟨role, ws, rs, enc, dec, state, started, sn, ro, rc, ms, mo, mr, ebuf, dbuf, edbuf, ddbuf⟩ := a
  simp only at h1
  unfold wantsFlush
  cases h1 <;> rfl

/-- What the calls on an active leader keep. -/
def RelOut (x y : Active × List Msg × LResult) : Prop :=
  y.2.1 = x.2.1 ∧ (y.2.2 = .panicked ↔ x.2.2 = .panicked) ∧
    ∃ rl, SameLayer x.1.core.rl rl ∧ y.1 = { x.1 with core := { x.1.core with rl } }

theorem SameLayer.start {a b : RecordLayer} (h : SameLayer a b) :
    SameLayer { a with started := true } { b with started := true } := by
  obtain ⟨eb, ed, st, rfl, h1, h2, h3⟩ := h
  exact ⟨_, _, _, rfl, h1, h2, h3⟩

theorem RelOut.pushIncoming {a : Active} {rl : RecordLayer} (h : SameLayer a.core.rl rl) (w : World) (m : OpaqueMessage) :
    RelOut (a.pushIncoming w m) (({ a with core := { a.core with rl } } : Active).pushIncoming w m) := by
  unfold Active.pushIncoming
  simp only
  cases opaqueIntoParts m.payload with
  | err e => exact ⟨rfl, Iff.rfl, rl, h, rfl⟩
  | panic => exact ⟨rfl, Iff.rfl, rl, h, rfl⟩
  | ok r =>
    obtain ⟨n, c, t⟩ := r
    obtain ⟨h1, h2⟩ := h.pushDecrypt m.typ m.version n c t
    revert h1 h2
    simp only
    cases a.core.rl.pushDecrypt m.typ m.version n c t with
    | mk x1 x2 =>
      cases rl.pushDecrypt m.typ m.version n c t with
      | mk y1 y2 =>
        intro h1 h2
        simp only at h1 h2
        subst h2
        cases y2 with
        | error e => exact ⟨rfl, Iff.rfl, _, h1, rfl⟩
        | ok u =>
          simp only
          cases w.ioOk
          · exact ⟨rfl, Iff.rfl, _, h1, rfl⟩
          · exact ⟨rfl, Iff.rfl, _, h1, rfl⟩

theorem RelOut.pushOutgoing {a : Active} {rl : RecordLayer} (h : SameLayer a.core.rl rl) (w : World) (m m' : PlainMsg)
    (ht : m'.typ = m.typ) (hv : m'.version = m.version) (hl : m.payload.length = m'.payload.length)
    (hp : m.typ = .applicationData ∨ m' = m) :
    RelOut (a.pushOutgoing w m) (({ a with core := { a.core with rl } } : Active).pushOutgoing w m') := by
  have hpub : (if m'.typ = .applicationData then none else some m'.payload) =
      (if m.typ = .applicationData then none else some m.payload) := by
    rcases hp with hp | hp
    · rw [if_pos (ht.trans hp), if_pos hp]
    · rw [hp]
  unfold Active.pushOutgoing
  simp only [hpub]
  obtain ⟨h1, h2⟩ := h.pushEncrypt m.typ m.version m.payload m'.payload hl
  rw [ht, hv]
  revert h1 h2
  generalize (if m.typ = .applicationData then none else some m.payload) = pub
  cases a.core.rl.pushEncrypt m.typ m.version m.payload.length (some m.payload) with
  | mk x1 x2 =>
    cases rl.pushEncrypt m.typ m.version m'.payload.length (some m'.payload) with
    | mk y1 y2 =>
      intro h1 h2
      simp only at h1 h2
      subst h2
      cases y2 with
      | error e => exact ⟨rfl, Iff.rfl, _, h1, rfl⟩
      | ok u =>
        simp only [hl]
        cases w.ioOk
        · exact ⟨rfl, Iff.rfl, _, h1, rfl⟩
        · exact ⟨rfl, Iff.rfl, _, h1, rfl⟩

theorem RelOut.startTraffic {a : Active} {rl : RecordLayer} (h : SameLayer a.core.rl rl) (w : World) :
    RelOut (a.startTraffic w) (({ a with core := { a.core with rl } } : Active).startTraffic w) := by
  unfold Active.startTraffic
  simp only
  cases w.ioOk
  · exact ⟨rfl, Iff.rfl, _, h.start, rfl⟩
  · exact ⟨rfl, Iff.rfl, _, h.start, rfl⟩

theorem RelOut.flush {D : Deps} {a : Active} {rl : RecordLayer} (h : SameLayer a.core.rl rl) (w : World) (d : Bool) :
    RelOut (a.flush D w d) (({ a with core := { a.core with rl } } : Active).flush D w d) := by
  unfold Active.flush
  simp only [h.empty]
  split
  · exact ⟨rfl, Iff.rfl, _, h, rfl⟩
  · split
    · exact ⟨rfl, Iff.rfl, _, h, rfl⟩
    · unfold Core.flushActive
      have hf : ({ a.core with rl } : Core).fns D = a.core.fns D := rfl
      rw [hf]
      cases a.core.fns D with
      | none => exact ⟨rfl, Iff.rfl, _, h, rfl⟩
      | some k =>
        obtain ⟨h1, h2⟩ := h.flush k D.peerData ⟨true, w.mpcOk⟩ d
        revert h1 h2
        simp only
        cases a.core.rl.flush k D.peerData ⟨true, w.mpcOk⟩ d with
        | mk x1 x2 =>
          cases rl.flush k D.peerData ⟨true, w.mpcOk⟩ d with
          | mk y1 y2 =>
            intro h1 h2
            simp only at h1 h2
            subst h2
            cases y2 with
            | error e => exact ⟨rfl, Iff.rfl, _, h1, rfl⟩
            | ok u => exact ⟨rfl, Iff.rfl, _, h1, rfl⟩

theorem afterClientVd_layer (D : Deps) (c : Core) (h : Vector Byte 32) : (c.afterClientVd D h).rl = c.rl := by
  have e := Core.afterClientVd_rl D c c.rl h
  have e' := congrArg (fun c : Core => c.rl) e
  exact e'

theorem afterServerVd_layer (D : Deps) (c : Core) (h : Vector Byte 32) : (c.afterServerVd D h).rl = c.rl := by
  have e := Core.afterServerVd_rl D c c.rl h
  have e' := congrArg (fun c : Core => c.rl) e
  exact e'

theorem RelOut.clientFinishedVd {D : Deps} {a : Active} {rl : RecordLayer} (h : SameLayer a.core.rl rl) (w : World) (hash : Bytes) :
    RelOut (a.clientFinishedVd D w hash) (({ a with core := { a.core with rl } } : Active).clientFinishedVd D w hash) := by
  unfold Active.clientFinishedVd
  simp only
  cases toArray32 hash with
  | none => exact ⟨rfl, Iff.rfl, _, h, rfl⟩
  | some x =>
    simp only
    split
    · exact ⟨rfl, Iff.rfl, _, h, rfl⟩
    · have h' : SameLayer (a.core.afterClientVd D x).rl rl := by rw [afterClientVd_layer]; exact h
      rw [Core.clientVd_rl D a.core rl x, Core.afterClientVd_rl D a.core rl x]
      cases a.core.clientVd D x with
      | err e => exact ⟨rfl, Iff.rfl, _, h', rfl⟩
      | panic => exact ⟨rfl, Iff.rfl, _, h', rfl⟩
      | ok r => exact ⟨rfl, Iff.rfl, _, h', rfl⟩

theorem RelOut.serverFinishedVd {D : Deps} {a : Active} {rl : RecordLayer} (h : SameLayer a.core.rl rl) (w : World) (hash : Bytes) :
    RelOut (a.serverFinishedVd D w hash) (({ a with core := { a.core with rl } } : Active).serverFinishedVd D w hash) := by
  unfold Active.serverFinishedVd
  simp only
  cases toArray32 hash with
  | none => exact ⟨rfl, Iff.rfl, _, h, rfl⟩
  | some x =>
    simp only
    split
    · exact ⟨rfl, Iff.rfl, _, h, rfl⟩
    · have h' : SameLayer (a.core.afterServerVd D x).rl rl := by rw [afterServerVd_layer]; exact h
      rw [Core.serverVd_rl D a.core rl x, Core.afterServerVd_rl D a.core rl x]
      cases a.core.serverVd D x with
      | err e => exact ⟨rfl, Iff.rfl, _, h', rfl⟩
      | panic => exact ⟨rfl, Iff.rfl, _, h', rfl⟩
      | ok r => exact ⟨rfl, Iff.rfl, _, h', rfl⟩

theorem RelOut.inActive {a : Active} {rl : RecordLayer} {d : Bool} {f g : Active → Active × List Msg × LResult}
    (h : RelOut (f a) (g { a with core := { a.core with rl } })) :
    RelState ((⟨.active a, d⟩ : Leader).inActive f).1.state
        ((⟨.active { a with core := { a.core with rl } }, d⟩ : Leader).inActive g).1.state ∧
      ((⟨.active { a with core := { a.core with rl } }, d⟩ : Leader).inActive g).2.1 = ((⟨.active a, d⟩ : Leader).inActive f).2.1 := by
  obtain ⟨h1, h2, rl', h3, h4⟩ := h
  unfold Leader.inActive
  simp only
  refine ⟨?_, h1⟩
  by_cases hp : (f a).2.2 = .panicked
  · rw [hp, h2.mpr hp]
    exact .quiet trivial trivial
  · have hq : (g { a with core := { a.core with rl } }).2.2 ≠ .panicked := fun hq => hp (h2.mp hq)
    have e1 : ∀ (r : LResult) (s : LState), r ≠ .panicked → s.unlessPanicked r = s := by
      intro r s hr
      cases r <;> first | rfl | exact absurd rfl hr
    rw [e1 _ _ hp, e1 _ _ hq, h4]
    exact .active _ _ h3

/-- The relation of two leaders. -/
structure RelLeader (l l' : Leader) : Prop where
  dec : l'.isDecrypting = l.isDecrypting
  state : RelState l.state l'.state

theorem step_decrypting (D : Deps) (cfg : Limits) (l : Leader) (w : World) (c : LCall) :
    (l.step D cfg w c).1.isDecrypting = match c with | .enableDecryption b => b | _ => l.isDecrypting := by
  obtain ⟨st, d⟩ := l
  cases c <;> simp only [Leader.step] <;>
    first
    | rfl
    | (simp only [Leader.alloc]; split <;> rfl)
    | (simp only [Leader.preprocess]; split <;> first | rfl | (split <;> first | rfl | (split <;> rfl)))
    | (simp only [Leader.prepareEncryption]; split <;> first | rfl | (split <;> first | rfl | (split <;> rfl)))
    | (simp only [Leader.inActive]; split <;> rfl)
    | (simp only [Leader.nextIncoming]; split <;> first | rfl | (split <;> first | rfl | (split <;> rfl)))
    | (simp only [Leader.nextOutgoing]; split <;> first | rfl | (split <;> first | rfl | (split <;> rfl)))
    | (simp only [Leader.flush]; split <;> first | rfl | (simp only [Leader.inActive]; split <;> rfl))
    | (simp only [Leader.closeConnection]; split <;> first | rfl | (split <;> rfl))
    | (simp only [Leader.finish]; split <;> rfl)

theorem next_encryptBuffer (rl : RecordLayer) : rl.nextDecrypted.1.encryptBuffer = rl.encryptBuffer := by
  unfold RecordLayer.nextDecrypted
  split
  · rfl
  · split <;> rfl

theorem next_encryptBuffer' (rl : RecordLayer) : rl.nextEncrypted.1.encryptBuffer = rl.encryptBuffer := by
  unfold RecordLayer.nextEncrypted
  split
  · rfl
  · split <;> rfl

theorem alloc_rl {D : Deps} {cfg : Limits} {role : Role} {sk : Nat} {otp : Bytes} {vm : Vm} {c : Core}
    (h : Core.alloc D cfg role sk otp vm = .ok c) : c.rl = RecordLayer.online role otp cfg.maxSentRecords cfg.maxRecvRecordsOnline
      cfg.maxSent cfg.maxRecvOnline cfg.maxRecv := by
  unfold Core.alloc at h
  simp only at h
  split at h
  · split at h
    · cases h; rfl
    · cases h
    · cases h
  · cases h
  · cases h

theorem preprocess_rl {c c' : Core} {k : Option Point} (h : c.preprocess k = .ok c') : c'.rl = c.rl := by
  unfold Core.preprocess at h
  split at h
  · cases h; rfl
  · cases h
  · cases h

theorem flushPrf_rl {D : Deps} {c c' : Core} (h : c.flushPrf D = .ok c') : c'.rl = c.rl := by
  unfold Core.flushPrf at h
  split at h <;> cases h
  rfl

theorem liftKx_rl {c c' : Core} {r : Outcome KxError Unit} (h : liftKx c r = .ok c') : c' = c := by
  unfold liftKx at h
  split at h <;> cases h
  rfl

theorem exchange_rl {D : Deps} {c c' : Core} {w : World} {key : Bytes} (h : c.exchange D w key = .ok c') : c'.rl = c.rl := by
  unfold Core.exchange at h
  split at h
  · cases h
  · obtain ⟨c1, h1, h⟩ := Outcome.bind_eq_ok.mp h
    obtain ⟨c2, h2, h⟩ := Outcome.bind_eq_ok.mp h
    obtain ⟨c3, h3, h⟩ := Outcome.bind_eq_ok.mp h
    obtain ⟨c4, h4, h⟩ := Outcome.bind_eq_ok.mp h
    obtain ⟨c5, h5, h⟩ := Outcome.bind_eq_ok.mp h
    have e1 : c1.rl = c.rl := by rw [liftKx_rl h1]
    have e2 : c2.rl = c1.rl := by
      unfold Core.peerAssign at h2
      split at h2
      · split at h2
        split at h2
        · split at h2
          · cases h2; rfl
          · cases h2
        · cases h2
      · cases h2; rfl
    have e3 : c3.rl = c2.rl := by rw [liftKx_rl h3]
    have e4 : c4.rl = c3.rl := flushPrf_rl h4
    have e5 : c5.rl = c4.rl := by rw [liftKx_rl h5]
    have e6 : c'.rl = c5.rl := by
      unfold Core.setup at h
      split at h
      · cases h; rfl
      · cases h
    rw [e6, e5, e4, e3, e2, e1]

theorem setServerRandom_rl {c c' : Core} {r : Vector Byte 32} (h : c.setServerRandom r = .ok c') : c'.rl = c.rl := by
  unfold Core.setServerRandom at h
  obtain ⟨p, -, h⟩ := Outcome.bind_eq_ok.mp h
  cases h
  rfl

theorem SameLayer.self {a : RecordLayer} (h : a.encryptBuffer = []) : SameLayer a a :=
  SameLayer.refl fun op hop => by rw [h] at hop; cases hop

theorem RelState.next {a : Active} {rl : RecordLayer} (h : SameLayer a.core.rl rl) (d : Bool) :
    RelState (Leader.nextIncoming ⟨.active a, d⟩).1.state
        (Leader.nextIncoming ⟨.active { a with core := { a.core with rl } }, d⟩).1.state ∧
      (Leader.nextIncoming ⟨.active { a with core := { a.core with rl } }, d⟩).2.1 = (Leader.nextIncoming ⟨.active a, d⟩).2.1 := by
  obtain ⟨h1, h2⟩ := h.nextDecrypted
  unfold Leader.nextIncoming
  simp only [LState.layer]
  revert h1 h2
  cases a.core.rl.nextDecrypted with
  | mk x1 x2 =>
    cases rl.nextDecrypted with
    | mk y1 y2 =>
      intro h1 h2
      simp only at h1 h2
      subst h2
      cases y2 with
      | none => exact ⟨.active _ _ h1, rfl⟩
      | some r =>
        simp only
        cases r.plaintext with
        | none => exact ⟨.quiet trivial trivial, rfl⟩
        | some p => exact ⟨.active { a with core := { a.core with rl := x1 } } _ h1, rfl⟩

theorem RelState.nextOut {a : Active} {rl : RecordLayer} (h : SameLayer a.core.rl rl) (d : Bool) :
    RelState (Leader.nextOutgoing ⟨.active a, d⟩).1.state
        (Leader.nextOutgoing ⟨.active { a with core := { a.core with rl } }, d⟩).1.state ∧
      (Leader.nextOutgoing ⟨.active { a with core := { a.core with rl } }, d⟩).2.1 = (Leader.nextOutgoing ⟨.active a, d⟩).2.1 := by
  obtain ⟨h1, h2⟩ := h.nextEncrypted
  unfold Leader.nextOutgoing
  simp only [LState.layer]
  revert h1 h2
  cases a.core.rl.nextEncrypted with
  | mk x1 x2 =>
    cases rl.nextEncrypted with
    | mk y1 y2 =>
      intro h1 h2
      simp only at h1 h2
      rcases h2 with ⟨rfl, rfl⟩ | ⟨x, y, rfl, rfl, ht⟩
      · exact ⟨.active { a with core := { a.core with rl := x1 } } _ h1, rfl⟩
      · simp only
        cases hx : x.tag with
        | none =>
          cases hy : y.tag with
          | none => exact ⟨.quiet trivial trivial, rfl⟩
          | some q => rw [hx, hy] at ht; cases ht
        | some p =>
          cases hy : y.tag with
          | none => rw [hx, hy] at ht; cases ht
          | some q => exact ⟨.active { a with core := { a.core with rl := x1 } } _ h1, rfl⟩

theorem RelState.close {D : Deps} {a : Active} {rl : RecordLayer} (d : Bool) (w : World) :
    RelState (Leader.closeConnection D ⟨.active a, d⟩ w).1.state
        (Leader.closeConnection D ⟨.active { a with core := { a.core with rl } }, d⟩ w).1.state ∧
      (Leader.closeConnection D ⟨.active { a with core := { a.core with rl } }, d⟩ w).2.1 =
        (Leader.closeConnection D ⟨.active a, d⟩ w).2.1 := by
  unfold Leader.closeConnection
  simp only
  split
  · exact ⟨.quiet trivial trivial, rfl⟩
  · refine ⟨.quiet ?_ ?_, rfl⟩
    · cases a.close D w <;> trivial
    · cases ({ a with core := { a.core with rl } } : Active).close D w <;> trivial

theorem RelState.active_step {D : Deps} {cfg : Limits} {a : Active} {rl : RecordLayer} (h : SameLayer a.core.rl rl) (d : Bool)
    (c : LCall) (w : World) :
    RelState ((⟨.active a, d⟩ : Leader).step D cfg w c).1.state
        ((⟨.active { a with core := { a.core with rl } }, d⟩ : Leader).step D cfg w c).1.state ∧
      ((⟨.active { a with core := { a.core with rl } }, d⟩ : Leader).step D cfg w c).2.1 =
        ((⟨.active a, d⟩ : Leader).step D cfg w c).2.1 := by
  cases c with
  | alloc => exact ⟨.quiet trivial trivial, rfl⟩
  | preprocess => exact ⟨.quiet trivial trivial, rfl⟩
  | clientRandom => exact ⟨.active _ _ h, rfl⟩
  | clientKeyShare => exact ⟨.active _ _ h, rfl⟩
  | prepareEncryption => exact ⟨.quiet trivial trivial, rfl⟩
  | clientFinishedVd hash => exact RelOut.inActive (RelOut.clientFinishedVd h w hash)
  | serverFinishedVd hash => exact RelOut.inActive (RelOut.serverFinishedVd h w hash)
  | pushIncoming m => exact RelOut.inActive (RelOut.pushIncoming h w m)
  | nextIncoming => exact RelState.next h d
  | pushOutgoing m => exact RelOut.inActive (RelOut.pushOutgoing h w m m rfl rfl rfl (.inr rfl))
  | nextOutgoing => exact RelState.nextOut h d
  | startTraffic => exact RelOut.inActive (RelOut.startTraffic h w)
  | flush => exact RelOut.inActive (RelOut.flush h w d)
  | isEmpty => exact ⟨.active _ _ h, rfl⟩
  | closeConnection => exact RelState.close d w
  | enableDecryption b => exact ⟨.active _ _ h, rfl⟩
  | finish => exact ⟨.active _ _ h, rfl⟩

theorem RelState.layers {x y : LState} (h : RelState x y) {a b : Active} (hx : x = .active a) (hy : y = .active b) :
    SameLayer a.core.rl b.core.rl := by
  cases h with
  | init => cases hx
  | setup => cases hx
  | ready => cases hx
  | active a rl h =>
    injection hx with e1
    injection hy with e2
    subst e1 e2
    exact h
  | quiet h _ => subst hx; cases h

/-- A state that is related to itself. -/
theorem RelState.self_step {D : Deps} {cfg : Limits} {l : Leader} (h : RelState l.state l.state) (c : LCall) (w : World) :
    RelState (l.step D cfg w c).1.state (l.step D cfg w c).1.state := by
  obtain ⟨st, d⟩ := l
  cases st with
  | active a =>
    have hs : SameLayer a.core.rl a.core.rl := h.layers rfl rfl
    exact (RelState.active_step (a := a) (rl := a.core.rl) hs d c w).1
  | closed rl t => exact .quiet (Silent.step (l := ⟨.closed rl t, d⟩) trivial w c).1 (Silent.step (l := ⟨.closed rl t, d⟩) trivial w c).1
  | error => exact .quiet (Silent.step (l := ⟨.error, d⟩) trivial w c).1 (Silent.step (l := ⟨.error, d⟩) trivial w c).1
  | init sk vm =>
    cases c <;> first | exact .quiet trivial trivial | exact .init _ _ | skip
    simp only [Leader.step, Leader.alloc]
    cases hc : Core.alloc D cfg .leader sk _ vm with
    | ok c => exact .setup _ _ (by rw [alloc_rl hc]; rfl)
    | err e => exact .quiet trivial trivial
    | panic => exact .quiet trivial trivial
  | setup co r =>
    have hs : co.rl.encryptBuffer = [] := by
      cases h with
      | setup _ _ h => exact h
      | quiet h _ => cases h
    cases c <;> first | exact .quiet trivial trivial | exact .setup _ _ hs | skip
    simp only [Leader.step, Leader.preprocess]
    cases hc : co.preprocess _ with
    | ok c =>
      simp only
      split
      · exact .ready _ _ (by show c.rl.encryptBuffer = []; rw [preprocess_rl hc]; exact hs)
      · exact .quiet trivial trivial
    | err e => exact .quiet trivial trivial
    | panic => exact .quiet trivial trivial
  | ready co r =>
    have hs : co.rl.encryptBuffer = [] := by
      cases h with
      | ready _ _ h => exact h
      | quiet h _ => cases h
    cases c <;> first | exact .quiet trivial trivial | exact .ready _ _ hs | skip
    · rename_i hd
      simp only [Leader.step, Leader.prepareEncryption]
      split
      · exact .quiet trivial trivial
      · split
        · exact .quiet trivial trivial
        · cases hc : (co.setServerRandom hd.random >>= fun c => c.exchange D w hd.key.key) with
          | ok c =>
            refine .active ⟨c, r, none, none, w.now, hd⟩ c.rl (SameLayer.self ?_)
            obtain ⟨c1, h1, h2⟩ := Outcome.bind_eq_ok.mp hc
            show c.rl.encryptBuffer = []
            rw [exchange_rl h2, setServerRandom_rl h1]
            exact hs
          | err e => exact .quiet trivial trivial
          | panic => exact .quiet trivial trivial
    · have e := next_encryptBuffer co.rl
      simp only [Leader.step, Leader.nextIncoming, LState.layer]
      revert e
      cases co.rl.nextDecrypted with
      | mk x o =>
        intro e
        cases o with
        | none => exact .ready _ _ (e.trans hs)
        | some y =>
          simp only
          cases y.plaintext
          · exact .quiet trivial trivial
          · exact .ready _ _ (e.trans hs)
    · have e := next_encryptBuffer' co.rl
      simp only [Leader.step, Leader.nextOutgoing, LState.layer]
      revert e
      cases co.rl.nextEncrypted with
      | mk x o =>
        intro e
        cases o with
        | none => exact .ready _ _ (e.trans hs)
        | some y =>
          simp only
          cases y.tag
          · exact .quiet trivial trivial
          · exact .ready _ _ (e.trans hs)

theorem RelLeader.step {D : Deps} {cfg : Limits} {l l' : Leader} (h : RelLeader l l') {x y : LCall × World} (hx : SameButData x y) :
    RelLeader (l.step D cfg x.2 x.1).1 (l'.step D cfg y.2 y.1).1 ∧ (l'.step D cfg y.2 y.1).2.1 = (l.step D cfg x.2 x.1).2.1 := by
  obtain ⟨hd, hs⟩ := h
  obtain ⟨s, d⟩ := l
  obtain ⟨s', d'⟩ := l'
  simp only at hd hs
  subst hd
  have key : RelState ((⟨s, d'⟩ : Leader).step D cfg x.2 x.1).1.state ((⟨s', d'⟩ : Leader).step D cfg y.2 y.1).1.state ∧
      ((⟨s', d'⟩ : Leader).step D cfg y.2 y.1).2.1 = ((⟨s, d'⟩ : Leader).step D cfg x.2 x.1).2.1 := by
    cases hx with
    | same =>
      cases hs with
      | init sk vm => exact ⟨RelState.self_step (l := ⟨.init sk vm, d'⟩) (.init ..) _ _, rfl⟩
      | setup c r h => exact ⟨RelState.self_step (l := ⟨.setup c r, d'⟩) (.setup _ _ h) _ _, rfl⟩
      | ready c r h => exact ⟨RelState.self_step (l := ⟨.ready c r, d'⟩) (.ready _ _ h) _ _, rfl⟩
      | active a rl h => exact RelState.active_step h d' _ _
      | quiet h h' =>
        have e1 := Silent.step (D := D) (cfg := cfg) (l := ⟨s, d'⟩) h x.2 x.1
        have e2 := Silent.step (D := D) (cfg := cfg) (l := ⟨s', d'⟩) h' x.2 x.1
        exact ⟨.quiet e1.1 e2.1, e2.2.trans e1.2.symm⟩
    | data v p q w hl =>
      cases hs with
      | init sk vm => exact ⟨.init .., rfl⟩
      | setup c r h => exact ⟨.setup _ _ h, rfl⟩
      | ready c r h => exact ⟨.ready _ _ h, rfl⟩
      | active a rl h =>
        exact RelOut.inActive (RelOut.pushOutgoing h w ⟨.applicationData, v, p⟩ ⟨.applicationData, v, q⟩ rfl rfl hl (.inl rfl))
      | quiet h h' =>
        have e1 := Silent.step (D := D) (cfg := cfg) (l := ⟨s, d'⟩) h w (.pushOutgoing ⟨.applicationData, v, p⟩)
        have e2 := Silent.step (D := D) (cfg := cfg) (l := ⟨s', d'⟩) h' w (.pushOutgoing ⟨.applicationData, v, q⟩)
        exact ⟨.quiet e1.1 e2.1, e2.2.trans e1.2.symm⟩
  refine ⟨⟨?_, key.1⟩, key.2⟩
  rw [step_decrypting, step_decrypting]
  cases hx with
  | same => rfl
  | data => rfl

theorem RelLeader.run {D : Deps} {cfg : Limits} {calls calls' : List (LCall × World)} (hc : List.Forall₂ SameButData calls calls') :
    ∀ {l l' : Leader}, RelLeader l l' → sentMessages (l'.run D cfg calls').2 = sentMessages (l.run D cfg calls).2 := by
  induction hc with
  | nil => intro l l' _; rfl
  | @cons x y xs ys hx _ ih =>
    intro l l' h
    obtain ⟨x1, x2⟩ := x
    obtain ⟨y1, y2⟩ := y
    obtain ⟨h1, h2⟩ := h.step (D := D) (cfg := cfg) hx
    have e := ih h1
    simp only [sentMessages] at e h2
    simp only [Leader.run, sentMessages, List.flatMap_cons, h2, e]

end Tlsn.Mpc

namespace Tlsn

open Mpc

/-- C71: whatever the calls on the leader are, in which order they come and how they end, the messages that go to the follower do
not depend on the contents of the application data that is sent, only on its length. -/
theorem C71_messages_hide_data (D : Deps) (cfg : Limits) (sk : Nat) (vm : Hmac.Vm) (deferDecryption : Bool)
    (calls calls' : List (LCall × World)) (h : List.Forall₂ SameButData calls calls') :
    sentMessages ((Leader.new sk vm deferDecryption).run D cfg calls').2 =
      sentMessages ((Leader.new sk vm deferDecryption).run D cfg calls).2 :=
  RelLeader.run h ⟨rfl, .init _ _⟩

end Tlsn
