import Verif.Session.LeaderProps
import Verif.Session.Secrecy

/-!
# What the leader hands out is what the transcript holds

The transcript of a session and the data that the client works with come from the same record layer, but from different lists in
it: `next_incoming` and `next_outgoing` take from the buffers, `close_connection` from the records.
-/

namespace Tlsn.Mpc

/-- The type and the content of the records that `next_incoming` returned. -/
def deliveredIn (out : List (List Msg × LResult)) : List (ContentType × Option Bytes) :=
  out.filterMap fun r => match r.2 with
    | .incoming (some m) => some (m.typ, some m.payload)
    | _ => none

/-- The type and the bytes of the records that `next_outgoing` returned. -/
def handedOut (out : List (List Msg × LResult)) : List (ContentType × Option Bytes) :=
  out.filterMap fun r => match r.2 with
    | .outgoing (some m) => some (m.typ, some m.payload)
    | _ => none

/-- The type and the content of a record in a transcript. -/
def _root_.Tlsn.Record.content (r : Record) : ContentType × Option Bytes := (r.typ, r.plaintext)

/-- The type of a record in a transcript, and its bytes as they are on the wire. -/
def _root_.Tlsn.Record.wire (r : Record) : ContentType × Option Bytes := (r.typ, r.tag.map fun tag => r.nonce ++ r.ciphertext ++ tag)

def EncryptedRecord.key (r : EncryptedRecord) : ContentType × Option Bytes := (r.typ, r.tag.map fun tag => r.nonce ++ r.ciphertext ++ tag)

def PlainRecord.key (r : PlainRecord) : ContentType × Option Bytes := (r.typ, r.plaintext)

/-- The records are those that were handed out, and then those in the buffers. -/
structure Kept (rl : RecordLayer) (sent recv : List Record) (out ins : List (ContentType × Option Bytes)) : Prop where
  sent : sent.map Record.wire = out ++ rl.encryptedBuffer.map EncryptedRecord.key
  recv : recv.map Record.content = ins ++ rl.decryptedBuffer.map PlainRecord.key

/-- The same of a record layer that is online. -/
def KeptOnline (rl : RecordLayer) (out ins : List (ContentType × Option Bytes)) : Prop :=
  ∃ otp sent recv, rl.state = .online otp sent recv ∧ Kept rl sent recv out ins

/-- The same of a leader. -/
def LKept (out ins : List (ContentType × Option Bytes)) : LState → Prop
  | .init _ _ => out = [] ∧ ins = []
  | .setup c _ => KeptOnline c.rl out ins
  | .ready c _ => KeptOnline c.rl out ins
  | .active a => KeptOnline a.core.rl out ins
  | .closed rl t => Kept rl t.sent t.recv out ins
  | .error => True

theorem zip_keys (ops : List DecryptOp) (ps : List (Option Bytes)) :
    (List.zipWith DecryptOp.record ops ps).map Record.content = (List.zipWith DecryptOp.plain ops ps).map PlainRecord.key := by
  rw [List.map_zipWith, List.map_zipWith]
  rfl

theorem map_keys (k : AeadFn) (peer : Nat → Bytes) (role : Role) (ops : List EncryptOp) :
    (ops.map (·.record k peer role)).map Record.wire = (ops.map (·.encrypted k peer role)).map EncryptedRecord.key := by
  rw [List.map_map, List.map_map]
  rfl

variable {out ins : List (ContentType × Option Bytes)}

theorem KeptOnline.congr {rl rl' : RecordLayer} (h : KeptOnline rl out ins) (h1 : rl'.state = rl.state)
    (h2 : rl'.encryptedBuffer = rl.encryptedBuffer) (h3 : rl'.decryptedBuffer = rl.decryptedBuffer) : KeptOnline rl' out ins := by
  obtain ⟨o, s, r, e, k⟩ := h
  exact ⟨o, s, r, h1.trans e, by rw [h2]; exact k.sent, by rw [h3]; exact k.recv⟩

theorem KeptOnline.pushEncrypt {rl : RecordLayer} (h : KeptOnline rl out ins) (t : ContentType) (v : ProtocolVersion) (n : Nat)
    (p : Option Bytes) : KeptOnline (rl.pushEncrypt t v n p).1 out ins := by
  unfold RecordLayer.pushEncrypt
  split
  · exact h
  · split
    · exact h
    · simp only
      split <;> exact h.congr rfl rfl rfl

theorem KeptOnline.pushDecrypt {rl : RecordLayer} (h : KeptOnline rl out ins) (t : ContentType) (v : ProtocolVersion) (n c g : Bytes) :
    KeptOnline (rl.pushDecrypt t v n c g).1 out ins := by
  unfold RecordLayer.pushDecrypt
  split
  · exact h
  · split
    · exact h
    · exact h.congr rfl rfl rfl

theorem KeptOnline.flushRun {rl : RecordLayer} {otp : Option Bytes} {sent recv : List Record} (h : Kept rl sent recv out ins)
    (hs : rl.state = .online otp sent recv) (k : SessionFns) (peer : Nat → Bytes) (env : FlushEnv) (eops : List EncryptOp)
    (dops : List DecryptOp) : KeptOnline (rl.flushRun k peer env otp sent recv eops dops).1 out ins := by
  unfold RecordLayer.flushRun
  split
  · exact ⟨_, _, _, hs, h.sent, h.recv⟩
  · split
    · exact ⟨_, _, _, rfl, h.sent, h.recv⟩
    · split
      · exact ⟨_, _, _, rfl, h.sent, h.recv⟩
      · simp only
        split
        · exact ⟨_, _, _, rfl, h.sent, h.recv⟩
        · split
          · exact ⟨_, _, _, rfl, h.sent, h.recv⟩
          · split
            · exact ⟨_, _, _, rfl, h.sent, h.recv⟩
            · refine ⟨_, _, _, rfl, ?_, ?_⟩
              · simp only [List.map_append, map_keys, h.sent, List.append_assoc]
              · simp only [List.map_append, zip_keys, h.recv, List.append_assoc]

theorem KeptOnline.flush {rl : RecordLayer} (h : KeptOnline rl out ins) (k : SessionFns) (peer : Nat → Bytes) (env : FlushEnv) (d : Bool) :
    KeptOnline (rl.flush k peer env d).1 out ins := by
  obtain ⟨o, s, r, e, hk⟩ := h
  unfold RecordLayer.flush
  rw [e]
  simp only
  generalize (if d = true then rl.decryptBuffer.length else firstAppData rl.decryptBuffer) = pos
  split
  · exact ⟨o, s, r, e, hk⟩
  · split
    · exact ⟨o, s, r, rfl, hk.sent, hk.recv⟩
    · split
      · exact ⟨o, s, r, rfl, hk.sent, hk.recv⟩
      · apply KeptOnline.flushRun
        · split <;> exact ⟨hk.sent, hk.recv⟩
        · split <;> rfl

theorem KeptOnline.commit {rl : RecordLayer} (h : KeptOnline rl out ins) {k : SessionFns} {env : FlushEnv} {rl' : RecordLayer}
    {p : List Record × List Record} (hc : rl.commit k env = (rl', .ok p)) : Kept rl' p.1 p.2 out ins := by
  obtain ⟨o, s, r, e, hk⟩ := h
  unfold RecordLayer.commit at hc
  rw [e] at hc
  simp only at hc
  split at hc
  · cases hc
  · split at hc
    · cases hc
    · split at hc
      · cases hc
      · split at hc
        · cases hc
        · cases hc
        · cases hc
          refine ⟨hk.sent, ?_⟩
          simp only [List.map_append, zip_keys, hk.recv, List.append_assoc]

theorem Kept.nextDecrypted {rl : RecordLayer} {sent recv : List Record} (h : Kept rl sent recv out ins) :
    Kept rl.nextDecrypted.1 sent recv out (ins ++ (rl.nextDecrypted.2.map PlainRecord.key).toList) ∧
      rl.nextDecrypted.1.state = rl.state := by
  unfold RecordLayer.nextDecrypted
  split
  · exact ⟨by simpa using h, rfl⟩
  · rename_i x rest e
    split
    · exact ⟨by simpa using h, rfl⟩
    · refine ⟨⟨h.sent, ?_⟩, rfl⟩
      rw [h.recv, e]
      simp

theorem Kept.nextEncrypted {rl : RecordLayer} {sent recv : List Record} (h : Kept rl sent recv out ins) :
    Kept rl.nextEncrypted.1 sent recv (out ++ (rl.nextEncrypted.2.map EncryptedRecord.key).toList) ins ∧
      rl.nextEncrypted.1.state = rl.state := by
  unfold RecordLayer.nextEncrypted
  split
  · exact ⟨by simpa using h, rfl⟩
  · rename_i x rest e
    split
    · exact ⟨by simpa using h, rfl⟩
    · refine ⟨⟨?_, h.recv⟩, rfl⟩
      rw [h.sent, e]
      simp

theorem kept_close {D : Deps} {a : Active} {w : World} {rl : RecordLayer} {t : TlsTranscript} (h : KeptOnline a.core.rl out ins)
    (hc : a.close D w = .ok (rl, t)) : Kept rl t.sent t.recv out ins := by
  unfold Active.close at hc
  obtain ⟨r, h1, hc⟩ := Outcome.bind_eq_ok.1 hc
  have hr : Kept r.1.rl r.2.1 r.2.2 out ins := by
    unfold Core.commit at h1
    split at h1
    · split at h1
      · cases h1
      · split at h1
        · rename_i e; cases h1; exact h.commit e
        · cases h1
        · cases h1
    · cases h1
  split at hc
  · split at hc
    · cases hc
    · split at hc
      · cases hc
      · obtain ⟨key, h2, hc⟩ := Outcome.bind_eq_ok.1 hc
        obtain ⟨t', h3, hc⟩ := Outcome.bind_eq_ok.1 hc
        obtain ⟨u, h4, hc⟩ := Outcome.bind_eq_ok.1 hc
        cases hc
        obtain ⟨e1, e2⟩ := C42_given_kept _ _ _ (buildTranscript_ok h3)
        rw [e1 _ rfl, e2 _ rfl]
        exact hr
  · cases hc

theorem LKept.inActive {l : Leader} {f : Active → Active × List Msg × LResult} (h : LKept out ins l.state)
    (hf : ∀ a, KeptOnline a.core.rl out ins → KeptOnline (f a).1.core.rl out ins) : LKept out ins (l.inActive f).1.state := by
  unfold Leader.inActive
  split
  · rename_i a e
    rw [e] at h
    simp only [LState.unlessPanicked]
    split
    · trivial
    · exact hf a h
  · exact h

/-- One call adds what it returns. -/
theorem LKept.step {D : Deps} {cfg : Limits} {l : Leader} (h : LKept out ins l.state) (w : World) (c : LCall) :
    LKept (out ++ handedOut [(l.step D cfg w c).2]) (ins ++ deliveredIn [(l.step D cfg w c).2]) (l.step D cfg w c).1.state := by
  obtain ⟨st, dec⟩ := l
  have none : ∀ {x : Leader × List Msg × LResult}, (∀ m, x.2.2 ≠ .incoming (some m)) → (∀ m, x.2.2 ≠ .outgoing (some m)) →
      LKept out ins x.1.state → LKept (out ++ handedOut [x.2]) (ins ++ deliveredIn [x.2]) x.1.state := by
    intro x h1 h2 h3
    obtain ⟨x1, ms, r⟩ := x
    have e1 : deliveredIn [(ms, r)] = [] := by
      cases r with
      | incoming m => cases m with
        | none => rfl
        | some m => exact absurd rfl (h1 m)
      | _ => rfl
    have e2 : handedOut [(ms, r)] = [] := by
      cases r with
      | outgoing m => cases m with
        | none => rfl
        | some m => exact absurd rfl (h2 m)
      | _ => rfl
    rw [e1, e2, List.append_nil, List.append_nil]
    exact h3
  have ofNo : ∀ {α : Type} (o : Outcome Err α), (∀ m, LResult.of o ≠ .incoming (some m)) ∧ (∀ m, LResult.of o ≠ .outgoing (some m)) := by
    intro α o
    cases o <;> exact ⟨(fun _ h => nomatch h), (fun _ h => nomatch h)⟩
  have act : ∀ {f : Active → Active × List Msg × LResult},
      (∀ a, KeptOnline a.core.rl out ins → KeptOnline (f a).1.core.rl out ins) →
      (∀ a m, (f a).2.2 ≠ .incoming (some m)) → (∀ a m, (f a).2.2 ≠ .outgoing (some m)) →
      LKept (out ++ handedOut [((⟨st, dec⟩ : Leader).inActive f).2]) (ins ++ deliveredIn [((⟨st, dec⟩ : Leader).inActive f).2])
        ((⟨st, dec⟩ : Leader).inActive f).1.state := by
    intro f h1 h2 h3
    refine none ?_ ?_ (LKept.inActive h h1)
    · intro m
      unfold Leader.inActive
      split
      · exact h2 _ m
      · exact fun h => nomatch h
    · intro m
      unfold Leader.inActive
      split
      · exact h3 _ m
      · exact fun h => nomatch h
  cases c with
  | alloc random otp =>
    simp only [Leader.step, Leader.alloc]
    split
    · refine none (ofNo _).1 (ofNo _).2 ?_
      rename_i sk vm e
      cases e
      simp only
      split
      · rename_i c e
        obtain ⟨rfl, rfl⟩ := h
        refine ⟨_, _, _, by rw [alloc_rl e]; rfl, ?_, ?_⟩ <;> rw [alloc_rl e] <;> rfl
      · trivial
    · exact none (fun _ h => nomatch h) (fun _ h => nomatch h) trivial
  | preprocess pk =>
    simp only [Leader.step, Leader.preprocess]
    split
    · rename_i c cr e
      cases e
      split
      · rename_i c' e
        split
        · refine none (fun _ h => nomatch h) (fun _ h => nomatch h) ?_
          exact (KeptOnline.congr (rl' := c'.rl) h (by rw [preprocess_rl e]) (by rw [preprocess_rl e]) (by rw [preprocess_rl e]))
        · exact none (fun _ h => nomatch h) (fun _ h => nomatch h) trivial
      · exact none (ofNo _).1 (ofNo _).2 trivial
    · exact none (fun _ h => nomatch h) (fun _ h => nomatch h) trivial
  | clientRandom =>
    refine none ?_ ?_ h <;> intro m <;> simp only [Leader.step, Leader.clientRandom] <;> split <;> exact fun h => nomatch h
  | clientKeyShare =>
    refine none ?_ ?_ h <;> intro m <;> simp only [Leader.step, Leader.clientKeyShare] <;> split
    all_goals first | (split <;> exact (fun h => nomatch h)) | exact (fun h => nomatch h)
  | prepareEncryption hs =>
    simp only [Leader.step, Leader.prepareEncryption]
    split
    · rename_i c cr e
      cases e
      split
      · exact none (fun _ h => nomatch h) (fun _ h => nomatch h) trivial
      · split
        · exact none (fun _ h => nomatch h) (fun _ h => nomatch h) trivial
        · refine none (ofNo _).1 (ofNo _).2 ?_
          simp only
          split
          · rename_i c' e
            obtain ⟨c1, e1, e2⟩ := Outcome.bind_eq_ok.1 e
            have hrl := (exchange_rl e2).trans (setServerRandom_rl e1)
            exact KeptOnline.congr (rl' := c'.rl) h (by rw [hrl]) (by rw [hrl]) (by rw [hrl])
          · trivial
    · exact none (fun _ h => nomatch h) (fun _ h => nomatch h) trivial
  | clientFinishedVd hash =>
    refine act (f := fun a => a.clientFinishedVd D w hash) ?_ ?_ ?_
    · intro a ha
      unfold Active.clientFinishedVd
      split
      · exact ha
      · split
        · exact ha
        · have := afterClientVd_layer D a.core
          simp only
          split <;> (simp only [this]; exact ha)
    all_goals
      intro a m
      unfold Active.clientFinishedVd
      split
      · exact fun h => nomatch h
      · split
        · exact fun h => nomatch h
        · simp only
          split <;> exact fun h => nomatch h
  | serverFinishedVd hash =>
    refine act (f := fun a => a.serverFinishedVd D w hash) ?_ ?_ ?_
    · intro a ha
      unfold Active.serverFinishedVd
      split
      · exact ha
      · split
        · exact ha
        · have := afterServerVd_layer D a.core
          simp only
          split <;> (simp only [this]; exact ha)
    all_goals
      intro a m
      unfold Active.serverFinishedVd
      split
      · exact fun h => nomatch h
      · split
        · exact fun h => nomatch h
        · simp only
          split <;> exact fun h => nomatch h
  | pushIncoming msg =>
    refine act (f := fun a => a.pushIncoming w msg) ?_ ?_ ?_
    · intro a ha
      unfold Active.pushIncoming
      split
      · exact ha
      · exact ha
      · rename_i n c g _
        have := ha.pushDecrypt msg.typ msg.version n c g
        revert this
        cases a.core.rl.pushDecrypt msg.typ msg.version n c g with
        | mk rl r =>
          intro this
          cases r with
          | error e => exact this
          | ok u =>
            simp only
            split <;> exact this
    all_goals
      intro a m
      unfold Active.pushIncoming
      split
      · exact fun h => nomatch h
      · exact fun h => nomatch h
      · split
        · exact fun h => nomatch h
        · split <;> exact fun h => nomatch h
  | pushOutgoing msg =>
    refine act (f := fun a => a.pushOutgoing w msg) ?_ ?_ ?_
    · intro a ha
      unfold Active.pushOutgoing
      have := ha.pushEncrypt msg.typ msg.version msg.payload.length (some msg.payload)
      revert this
      cases a.core.rl.pushEncrypt msg.typ msg.version msg.payload.length (some msg.payload) with
      | mk rl r =>
        intro this
        cases r with
        | error e => exact this
        | ok u =>
          simp only
          split <;> exact this
    all_goals
      intro a m
      unfold Active.pushOutgoing
      simp only
      split
      · exact fun h => nomatch h
      · split <;> exact fun h => nomatch h
  | startTraffic =>
    refine act (f := fun a => a.startTraffic w) ?_ ?_ ?_
    · intro a ha
      unfold Active.startTraffic
      simp only
      split <;> exact ha.congr rfl rfl rfl
    all_goals
      intro a m
      unfold Active.startTraffic
      simp only
      split <;> exact fun h => nomatch h
  | flush =>
    simp only [Leader.step, Leader.flush]
    split
    · exact none (fun _ h => nomatch h) (fun _ h => nomatch h) h
    · exact none (fun _ h => nomatch h) (fun _ h => nomatch h) h
    · refine act (f := fun a => a.flush D w dec) ?_ ?_ ?_
      · intro a ha
        unfold Active.flush
        split
        · exact ha
        · split
          · exact ha
          · simp only [Core.flushActive]
            split
            · exact ha
            · rename_i k _
              have := ha.flush k D.peerData ⟨true, w.mpcOk⟩ dec
              revert this
              cases a.core.rl.flush k D.peerData ⟨true, w.mpcOk⟩ dec with
              | mk rl r =>
                intro this
                cases r with
                | error e => exact this
                | ok u => exact this
      all_goals
        intro a m
        unfold Active.flush
        split
        · exact fun h => nomatch h
        · split
          · exact fun h => nomatch h
          · first | exact (ofNo _).1 m | exact (ofNo _).2 m
  | isEmpty => exact none (fun _ h => nomatch h) (fun _ h => nomatch h) h
  | enableDecryption b => exact none (fun _ h => nomatch h) (fun _ h => nomatch h) h
  | finish =>
    refine none (fun _ h => nomatch h) (fun _ h => nomatch h) ?_
    simp only [Leader.step, Leader.finish]
    split
    · trivial
    · exact h
  | closeConnection =>
    simp only [Leader.step, Leader.closeConnection]
    split
    · rename_i a e
      cases e
      split
      · exact none (fun _ h => nomatch h) (fun _ h => nomatch h) trivial
      · refine none (ofNo _).1 (ofNo _).2 ?_
        simp only
        split
        · rename_i e
          exact kept_close h e
        · trivial
    · exact none (fun _ h => nomatch h) (fun _ h => nomatch h) trivial
  | nextIncoming =>
    have key : ∀ (rl : RecordLayer) (x : LState), LState.layer x = some rl → LKept out ins x →
        LKept out (ins ++ (rl.nextDecrypted.2.map PlainRecord.key).toList) (x.setLayer rl.nextDecrypted.1) := by
      intro rl x e hx
      cases x with
      | ready c cr =>
        cases e
        obtain ⟨o, s, r, e, hk⟩ := hx
        exact ⟨o, s, r, hk.nextDecrypted.2.trans e, hk.nextDecrypted.1⟩
      | active a =>
        cases e
        obtain ⟨o, s, r, e, hk⟩ := hx
        exact ⟨o, s, r, hk.nextDecrypted.2.trans e, hk.nextDecrypted.1⟩
      | closed rl t => cases e; exact hx.nextDecrypted.1
      | _ => cases e
    simp only [Leader.step, Leader.nextIncoming]
    cases hl : st.layer with
    | none => exact none (fun _ h => nomatch h) (fun _ h => nomatch h) h
    | some rl =>
      have := key rl st hl h
      revert this
      simp only
      cases rl.nextDecrypted with
      | mk rl' o =>
        cases o with
        | none => intro this; exact none (fun _ h => nomatch h) (fun _ h => nomatch h) (by simpa using this)
        | some r =>
          intro this
          simp only
          cases hp : r.plaintext with
          | none => exact none (fun _ h => nomatch h) (fun _ h => nomatch h) trivial
          | some p =>
            simp only [Option.map_some, Option.toList_some, PlainRecord.key, hp] at this
            simpa [handedOut, deliveredIn] using this
  | nextOutgoing =>
    have key : ∀ (rl : RecordLayer) (x : LState), LState.layer x = some rl → LKept out ins x →
        LKept (out ++ (rl.nextEncrypted.2.map EncryptedRecord.key).toList) ins (x.setLayer rl.nextEncrypted.1) := by
      intro rl x e hx
      cases x with
      | ready c cr =>
        cases e
        obtain ⟨o, s, r, e, hk⟩ := hx
        exact ⟨o, s, r, hk.nextEncrypted.2.trans e, hk.nextEncrypted.1⟩
      | active a =>
        cases e
        obtain ⟨o, s, r, e, hk⟩ := hx
        exact ⟨o, s, r, hk.nextEncrypted.2.trans e, hk.nextEncrypted.1⟩
      | closed rl t => cases e; exact hx.nextEncrypted.1
      | _ => cases e
    simp only [Leader.step, Leader.nextOutgoing]
    cases hl : st.layer with
    | none => exact none (fun _ h => nomatch h) (fun _ h => nomatch h) h
    | some rl =>
      have := key rl st hl h
      revert this
      simp only
      cases rl.nextEncrypted with
      | mk rl' o =>
        cases o with
        | none => intro this; exact none (fun _ h => nomatch h) (fun _ h => nomatch h) (by simpa using this)
        | some r =>
          intro this
          simp only
          cases hp : r.tag with
          | none => exact none (fun _ h => nomatch h) (fun _ h => nomatch h) trivial
          | some p =>
            simp only [Option.map_some, Option.toList_some, EncryptedRecord.key, hp] at this
            simpa [handedOut, deliveredIn] using this

theorem deliveredIn_append (a b : List (List Msg × LResult)) : deliveredIn (a ++ b) = deliveredIn a ++ deliveredIn b :=
  List.filterMap_append

theorem handedOut_append (a b : List (List Msg × LResult)) : handedOut (a ++ b) = handedOut a ++ handedOut b :=
  List.filterMap_append

theorem LKept.run {D : Deps} {cfg : Limits} (cs : List (LCall × World)) {l : Leader} {out ins : List (ContentType × Option Bytes)}
    (h : LKept out ins l.state) :
    LKept (out ++ handedOut (l.run D cfg cs).2) (ins ++ deliveredIn (l.run D cfg cs).2) (l.run D cfg cs).1.state := by
  induction cs generalizing l out ins with
  | nil => simpa [Leader.run, handedOut, deliveredIn] using h
  | cons x xs ih =>
    obtain ⟨c, w⟩ := x
    have := ih (h.step (D := D) (cfg := cfg) w c)
    rw [List.append_assoc, List.append_assoc, ← handedOut_append, ← deliveredIn_append] at this
    exact this

/-- A leader without a state gives nothing. -/
theorem run_error {D : Deps} {cfg : Limits} (cs : List (LCall × World)) {l : Leader} (h : l.state = .error) :
    handedOut (l.run D cfg cs).2 = [] ∧ deliveredIn (l.run D cfg cs).2 = [] := by
  induction cs generalizing l with
  | nil => exact ⟨rfl, rfl⟩
  | cons x xs ih =>
    obtain ⟨c, w⟩ := x
    obtain ⟨st, d⟩ := l
    cases h
    have h1 : ((⟨.error, d⟩ : Leader).step D cfg w c).1.state = .error := by cases c <;> rfl
    obtain ⟨a, b⟩ := ih h1
    have h2 : handedOut [((⟨.error, d⟩ : Leader).step D cfg w c).2] = [] ∧ deliveredIn [((⟨.error, d⟩ : Leader).step D cfg w c).2] = [] := by
      cases c <;> exact ⟨rfl, rfl⟩
    have e : ((⟨.error, d⟩ : Leader).run D cfg ((c, w) :: xs)).2 =
        [((⟨.error, d⟩ : Leader).step D cfg w c).2] ++ (((⟨.error, d⟩ : Leader).step D cfg w c).1.run D cfg xs).2 := rfl
    rw [e, handedOut_append, deliveredIn_append, h2.1, h2.2, a, b]
    exact ⟨rfl, rfl⟩

/-- Results that hold no record. -/
def LResult.bare : LResult → Bool
  | .incoming _ => false
  | .outgoing _ => false
  | _ => true

theorem bare_of {α : Type} (r : Outcome Err α) : (LResult.of r).bare = true := by cases r <;> rfl

/-- Only `next_incoming` and `next_outgoing` return records. -/
theorem bare_step (D : Deps) (cfg : Limits) (l : Leader) (w : World) (c : LCall) (h1 : c ≠ .nextIncoming) (h2 : c ≠ .nextOutgoing) :
    (l.step D cfg w c).2.2.bare = true := by
  obtain ⟨st, d⟩ := l
  have act : ∀ f : Active → Active × List Msg × LResult, (∀ a, (f a).2.2.bare = true) → ((⟨st, d⟩ : Leader).inActive f).2.2.bare = true := by
    intro f hf
    unfold Leader.inActive
    split
    · exact hf _
    · rfl
  cases c with
  | nextIncoming => exact absurd rfl h1
  | nextOutgoing => exact absurd rfl h2
  | alloc r o => unfold Leader.step Leader.alloc; cases st <;> first | exact bare_of _ | rfl
  | preprocess k =>
    unfold Leader.step Leader.preprocess
    cases st <;> first | rfl | skip
    simp only
    split
    · split <;> rfl
    · exact bare_of _
  | clientRandom => unfold Leader.step Leader.clientRandom; cases st <;> rfl
  | clientKeyShare =>
    unfold Leader.step Leader.clientKeyShare
    cases st <;> first | rfl | skip
    simp only
    split <;> rfl
  | prepareEncryption hs =>
    unfold Leader.step Leader.prepareEncryption
    cases st <;> first | rfl | skip
    simp only
    split
    · rfl
    · split
      · rfl
      · exact bare_of _
  | closeConnection =>
    unfold Leader.step Leader.closeConnection
    cases st <;> first | rfl | skip
    simp only
    split
    · rfl
    · exact bare_of _
  | isEmpty => rfl
  | enableDecryption b => rfl
  | finish => rfl
  | clientFinishedVd hash =>
    refine act _ fun a => ?_
    simp only [Active.clientFinishedVd]
    split
    · rfl
    · split
      · rfl
      · split <;> rfl
  | serverFinishedVd hash =>
    refine act _ fun a => ?_
    simp only [Active.serverFinishedVd]
    split
    · rfl
    · split
      · rfl
      · split <;> rfl
  | pushIncoming m =>
    refine act _ fun a => ?_
    simp only [Active.pushIncoming]
    split
    · rfl
    · rfl
    · split
      · rfl
      · split <;> rfl
  | pushOutgoing m =>
    refine act _ fun a => ?_
    simp only [Active.pushOutgoing]
    split
    · rfl
    · split <;> rfl
  | startTraffic =>
    refine act _ fun a => ?_
    simp only [Active.startTraffic]
    split <;> rfl
  | flush =>
    have : ∀ a, (Active.flush D a w d).2.2.bare = true := by
      intro a
      simp only [Active.flush]
      split
      · rfl
      · split
        · rfl
        · exact bare_of _
    unfold Leader.step Leader.flush
    cases st <;> first | rfl | exact act _ this

theorem bare_none {ms : List Msg} {r : LResult} (h : r.bare = true) : deliveredIn [(ms, r)] = [] ∧ handedOut [(ms, r)] = [] := by
  cases r <;> first | exact ⟨rfl, rfl⟩ | cases h

end Tlsn.Mpc

namespace Tlsn

open Tlsn.Mpc

/-- **C130** Whatever is called on a leader, and however the calls end: if it gives a transcript, then the records that
`next_incoming` returned, with their types and contents, are the first of the received records in it, and the records that
`next_outgoing` returned are the first of the sent ones, byte for byte. -/
theorem C130_in_transcript (D : Deps) (cfg : Limits) (sk : Nat) (vm : Hmac.Vm) (defer : Bool) (calls : List (LCall × World)) (ms : List Msg)
    (t : TlsTranscript) (ht : (ms, .finished (some t)) ∈ ((Leader.new sk vm defer).run D cfg calls).2) :
    deliveredIn ((Leader.new sk vm defer).run D cfg calls).2 <+: t.recv.map Record.content ∧
      handedOut ((Leader.new sk vm defer).run D cfg calls).2 <+: t.sent.map Record.wire := by
  obtain ⟨c1, w, c2, rl, e, hst⟩ := finished_split calls ht
  have hk := LKept.run (D := D) (cfg := cfg) c1 (l := Leader.new sk vm defer) (out := []) (ins := []) ⟨rfl, rfl⟩
  rw [hst] at hk
  have h2 : ((Leader.new sk vm defer).run D cfg calls).2 =
      ((Leader.new sk vm defer).run D cfg c1).2 ++ (([] , LResult.finished (some t)) ::
        (((Leader.new sk vm defer).run D cfg c1).1.finish.1.run D cfg c2).2) := by
    rw [e, leader_run_append]
    simp only [Leader.run, Leader.step, Leader.finish, hst]
  have h3 : (((Leader.new sk vm defer).run D cfg c1).1.finish.1).state = .error := by simp only [Leader.finish, hst]
  obtain ⟨a, b⟩ := run_error (D := D) (cfg := cfg) c2 h3
  rw [h2, ← List.singleton_append, deliveredIn_append, deliveredIn_append, handedOut_append, handedOut_append, a, b, hk.recv, hk.sent]
  exact ⟨by simp [deliveredIn], by simp [handedOut]⟩

/-- **C130** If the leader said before `finish` that its buffers are empty, then they are all of the records. -/
theorem C130_all (D : Deps) (cfg : Limits) (sk : Nat) (vm : Hmac.Vm) (defer : Bool) (calls : List (LCall × World)) (w w' : World) (t : TlsTranscript)
    (he : ((Leader.new sk vm defer).run D cfg calls).1.isEmpty = true)
    (ht : ((((Leader.new sk vm defer).run D cfg calls).1.step D cfg w .isEmpty).1.step D cfg w' .finish).2.2 = .finished (some t)) :
    deliveredIn ((Leader.new sk vm defer).run D cfg calls).2 = t.recv.map Record.content ∧
      handedOut ((Leader.new sk vm defer).run D cfg calls).2 = t.sent.map Record.wire := by
  have hk := LKept.run (D := D) (cfg := cfg) calls (l := Leader.new sk vm defer) (out := []) (ins := []) ⟨rfl, rfl⟩
  simp only [Leader.step, Leader.finish] at ht
  split at ht
  · rename_i rl t' hst
    cases ht
    rw [hst] at hk
    simp only [Leader.isEmpty, hst, layerEmpty, Bool.and_eq_true, List.isEmpty_iff] at he
    rw [hk.recv, hk.sent, he.1.2, he.2]
    simp
  · cases ht

namespace MpcExample

/-- The session of the example: with data that is decrypted when the connection is closed, and with data that is decrypted before. -/
def early : List LCall := (leaderCalls [60, 61, 62]).filter (fun c => match c with | .enableDecryption _ => false | _ => true) ++ [.nextIncoming]

example : deliveredIn (lead (leaderCalls [60, 61, 62])) = [(.handshake, some sf)] ∧
    deliveredIn (lead early) = [(.handshake, some sf), (.applicationData, some [50, 51])] ∧
    (transcripts (lead early)).map (fun t => t.recv.map Record.content) = [[(.handshake, some sf), (.applicationData, some [50, 51])]] ∧
    (handedOut (lead early)).map (·.1) = [.handshake, .applicationData, .alert] ∧
    (transcripts (lead early)).map (fun t => t.sent.map Record.wire) = [handedOut (lead early)] := by decide +kernel

/-- The hypotheses of `C130_all` hold, too. -/
example : let l := ((Leader.new 2 emptyVm false).run deps limits ((early ++ [LCall.closeConnection]).map (·, leaderWorld))).1
    l.isEmpty = true ∧ (match ((l.step deps limits leaderWorld .isEmpty).1.step deps limits leaderWorld .finish).2.2 with
      | .finished (some t) => t.recv.length | _ => 0) = 2 := by decide +kernel

end MpcExample

end Tlsn
