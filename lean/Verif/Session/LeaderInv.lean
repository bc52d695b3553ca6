import Verif.Session.LeaderSpec
import Verif.Session.FollowerInv
import Verif.Session.Secrecy

/-! # The invariant of a leader -/

namespace Tlsn.Mpc

open Hmac Kex

/-! ## Calls on the leader and on its record layer -/

theorem outgoings_append (a b : List LCall) (n : Nat) :
    outgoings n (a ++ b) = outgoings n a ++ outgoings (n + (outgoings n a).length) b := by
  induction a generalizing n with
  | nil => rfl
  | cons x xs ih =>
    cases x <;> simp [outgoings, ih, Nat.add_assoc, Nat.add_comm 1]

theorem incomings_append (a b : List LCall) (n : Nat) :
    incomings n (a ++ b) = incomings n a ++ incomings (n + (incomings n a).length) b := by
  induction a generalizing n with
  | nil => rfl
  | cons x xs ih =>
    cases x <;> simp [incomings, ih, Nat.add_assoc, Nat.add_comm 1]

theorem callSendings_append (a b : List RlCall) (n : Nat) :
    callSendings n (a ++ b) = callSendings n a ++ callSendings (n + (callSendings n a).length) b := by
  induction a generalizing n with
  | nil => rfl
  | cons x xs ih =>
    cases x <;> simp [callSendings, ih, Nat.add_assoc, Nat.add_comm 1]

theorem callReceivings_append (a b : List RlCall) (n : Nat) :
    callReceivings n (a ++ b) = callReceivings n a ++ callReceivings (n + (callReceivings n a).length) b := by
  induction a generalizing n with
  | nil => rfl
  | cons x xs ih =>
    cases x <;> simp [callReceivings, ih, Nat.add_assoc, Nat.add_comm 1]

theorem sendings_append (a b : List Msg) (n : Nat) :
    sendings n (a ++ b) = sendings n a ++ sendings (n + (sendings n a).length) b := by
  induction a generalizing n with
  | nil => rfl
  | cons x xs ih =>
    cases x <;> simp [sendings, ih, Nat.add_assoc, Nat.add_comm 1]

theorem receivings_append (a b : List Msg) (n : Nat) :
    receivings n (a ++ b) = receivings n a ++ receivings (n + (receivings n a).length) b := by
  induction a generalizing n with
  | nil => rfl
  | cons x xs ih =>
    cases x <;> simp [receivings, ih, Nat.add_assoc, Nat.add_comm 1]

/-- The calls on the record layer, and the messages, have the records of the calls on the leader, which is not closed. -/
structure Trace (rc : List RlCall) (hist : List (LCall × World)) (msgs : List Msg) : Prop where
  sent : callSendings 0 rc = outgoings 0 (hist.map (·.1))
  recv : callReceivings 0 rc = incomings 0 (hist.map (·.1))
  nocommit : ∀ e, RlCall.commit e ∉ rc
  length : rc.length ≤ hist.length
  told : sendings 0 msgs = (outgoings 0 (hist.map (·.1))).map Sending.told
  heard : receivings 0 msgs = incomings 0 (hist.map (·.1))
  isOpen : ∀ x ∈ hist, x.1 ≠ .closeConnection
  noclose : Msg.closeConnection ∉ msgs

theorem Trace.more {rc : List RlCall} {hist : List (LCall × World)} {msgs : List Msg} (h : Trace rc hist msgs) (c : RlCall)
    (x : LCall × World) (ms : List Msg)
    (h1 : ∀ n, callSendings n [c] = outgoings n [x.1]) (h2 : ∀ n, callReceivings n [c] = incomings n [x.1])
    (h3 : ∀ e, c ≠ .commit e) (h4 : ∀ n, sendings n ms = (outgoings n [x.1]).map Sending.told)
    (h5 : ∀ n, receivings n ms = incomings n [x.1]) (h6 : x.1 ≠ .closeConnection) (h7 : Msg.closeConnection ∉ ms) :
    Trace (rc ++ [c]) (hist ++ [x]) (msgs ++ ms) := by
  obtain ⟨a, b, d, e, f, g, i, j⟩ := h
  refine ⟨?_, ?_, ?_, by simpa using e, ?_, ?_, ?_, ?_⟩
  · rw [List.map_append, outgoings_append, callSendings_append, a, h1]; rfl
  · rw [List.map_append, incomings_append, callReceivings_append, b, h2]; rfl
  · intro e he
    rcases List.mem_append.1 he with he | he
    · exact d e he
    · exact h3 e (List.mem_singleton.1 he).symm
  · rw [List.map_append, outgoings_append, sendings_append, f, h4, List.map_append, List.length_map]; rfl
  · rw [List.map_append, incomings_append, receivings_append, g, h5]; rfl
  · intro y hy
    rcases List.mem_append.1 hy with hy | hy
    · exact i y hy
    · rw [List.mem_singleton.1 hy]; exact h6
  · intro hm
    rcases List.mem_append.1 hm with hm | hm
    · exact j hm
    · exact h7 hm

theorem Trace.skip {rc : List RlCall} {hist : List (LCall × World)} {msgs : List Msg} (h : Trace rc hist msgs) (x : LCall × World)
    (ms : List Msg) (h1 : ∀ n, outgoings n [x.1] = []) (h2 : ∀ n, incomings n [x.1] = []) (h4 : ∀ n, sendings n ms = [])
    (h5 : ∀ n, receivings n ms = []) (h6 : x.1 ≠ .closeConnection) (h7 : Msg.closeConnection ∉ ms) :
    Trace rc (hist ++ [x]) (msgs ++ ms) := by
  obtain ⟨a, b, d, e, f, g, i, j⟩ := h
  refine ⟨?_, ?_, d, by simp; omega, ?_, ?_, ?_, ?_⟩
  · rw [List.map_append, outgoings_append, a, List.map_singleton, h1, List.append_nil]
  · rw [List.map_append, incomings_append, b, List.map_singleton, h2, List.append_nil]
  · rw [List.map_append, outgoings_append, sendings_append, f, h4, List.map_singleton, h1, List.append_nil, List.append_nil]
  · rw [List.map_append, incomings_append, receivings_append, g, h5, List.map_singleton, h2]
  · intro y hy
    rcases List.mem_append.1 hy with hy | hy
    · exact i y hy
    · rw [List.mem_singleton.1 hy]; exact h6
  · intro hm
    rcases List.mem_append.1 hm with hm | hm
    · exact j hm
    · exact h7 hm

theorem handshakeCalls_append (a b : List (LCall × World)) : handshakeCalls (a ++ b) = handshakeCalls a ++ handshakeCalls b := by
  simp [handshakeCalls]

theorem handshakeCalls_skip {hist : List (LCall × World)} {x : LCall × World} (h : x.1.isHandshake = false) :
    handshakeCalls (hist ++ [x]) = handshakeCalls hist := by
  rw [handshakeCalls_append]
  simp [handshakeCalls, h]

theorem clientVdCalls_append (a b : List (LCall × World)) : clientVdCalls (a ++ b) = clientVdCalls a ++ clientVdCalls b := by
  simp [clientVdCalls]

theorem serverVdCalls_append (a b : List (LCall × World)) : serverVdCalls (a ++ b) = serverVdCalls a ++ serverVdCalls b := by
  simp [serverVdCalls]

/-! ## The invariant -/

/-- A server's answer that was accepted. -/
structure Led (D : Deps) (n : Nat) (hist : List (LCall × World)) (c : Core) (hs : HsData) (w : World) (p0 p1 : Fp)
    (o : Bytes × Bytes) : Prop where
  mem : (.prepareEncryption hs, w) ∈ hist
  group : hs.key.group = .secp256r1
  parsed : (D.parseKey hs.key.key).isSome = true
  share0 : w.share0 = .ok p0
  share1 : w.share1 = .ok p1
  peer : ∀ v, w.peerShares = some v → o = v
  agree : (secretOf D .leader p0 p1 o).1 = (secretOf D .leader p0 p1 o).2.1
  secret : c.vm.recv (outAt D.add n (·.1)).val = some (secretOf D .leader p0 p1 o).1

theorem Led.mono {D : Deps} {n : Nat} {hist : List (LCall × World)} {c c' : Core} {hs : HsData} {w : World} {p0 p1 : Fp}
    {o : Bytes × Bytes} (h : Led D n hist c hs w p0 p1 o) (x : List (LCall × World)) (hg : Grows c.vm c'.vm) :
    Led D n (hist ++ x) c' hs w p0 p1 o := by
  obtain ⟨a, c1, d, e, f, g, i, j⟩ := h
  exact ⟨List.mem_append_left _ a, c1, d, e, f, g, i, (outAt D.add n (·.1)).val.mono _ _ _ hg.2 j⟩

/-- The call that causes a message of the end of the handshake. -/
def finCall : Msg → LCall
  | .clientFinishedVd h => .clientFinishedVd h.toList
  | .serverFinishedVd h => .serverFinishedVd h.toList
  | _ => .finish

/-- An active leader. -/
structure LActive (D : Deps) (cfg : Limits) (n : Nat) (hist : List (LCall × World)) (msgs : List Msg) (a : Active) (otp : Bytes)
    (pk : Option Point) (w : World) (p0 p1 : Fp) (o : Bytes × Bytes) (fin : List Msg) (ops : List PrfOp) (rc : List RlCall) :
    Prop where
  core : CoreInv D cfg n ops a.core
  rl : RlInv D cfg .leader otp rc a.core
  ready : a.core.ready = true
  crs : clientRandoms ops = [a.clientRandom.toList]
  srs : serverRandoms ops = [a.hs.random.toList]
  led : Led D n hist a.core a.hs w p0 p1 o
  time : a.time = w.now
  fins : Fin D.sha (D.sha.masterSecret (secretOf D .leader p0 p1 o).1 a.clientRandom.toList a.hs.random.toList) fin a.cf a.sf
  calls : handshakeCalls hist = .alloc a.clientRandom otp :: .preprocess pk :: .prepareEncryption a.hs :: fin.map finCall
  told : msgs.filter Msg.isHandshake =
    .setClientRandom a.clientRandom :: .serverHello ⟨w.now, a.hs.random, a.hs.key⟩ :: fin
  hf : (a.cf = none → cfHashes ops = []) ∧ (a.sf = none → sfHashes ops = [])
  trace : Trace rc hist msgs

inductive LInv (D : Deps) (cfg : Limits) (n : Nat) : List (LCall × World) → List Msg → LState → Prop
  | init (hist : List (LCall × World)) (msgs : List Msg) (sk : Nat) (vm : Vm) (hvm : vm.Fresh) (hn : vm.next = n)
      (hh : handshakeCalls hist = []) (hm : msgs.filter Msg.isHandshake = []) (ht : Trace [] hist msgs) :
      LInv D cfg n hist msgs (.init sk vm)
  | setup (hist : List (LCall × World)) (msgs : List Msg) (c : Core) (cr : Vector Byte 32) (otp : Bytes)
      (hc : CoreInv D cfg n [] c) (hr : c.ready = false)
      (hrl : c.rl = RecordLayer.online .leader otp cfg.maxSentRecords cfg.maxRecvRecordsOnline cfg.maxSent cfg.maxRecvOnline
        cfg.maxRecv)
      (hk : c.ke.state = .setup (slotsAt D.add n)) (hro : c.ke.role = .leader) (hh : handshakeCalls hist = [.alloc cr otp])
      (hm : msgs.filter Msg.isHandshake = []) (ht : Trace [] hist msgs) : LInv D cfg n hist msgs (.setup c cr)
  | ready (hist : List (LCall × World)) (msgs : List Msg) (c : Core) (cr : Vector Byte 32) (otp : Bytes) (pk : Option Point)
      (rc : List RlCall) (hc : CoreInv D cfg n [.clientRandom cr.toList] c) (hr : c.ready = false)
      (hrl : RlInv D cfg .leader otp rc c) (hk : ∃ fk, c.ke.state = .followerKey fk (slotsAt D.add n))
      (hro : c.ke.role = .leader) (hh : handshakeCalls hist = [.alloc cr otp, .preprocess pk])
      (hm : msgs.filter Msg.isHandshake = [.setClientRandom cr]) (ht : Trace rc hist msgs) : LInv D cfg n hist msgs (.ready c cr)
  | active (hist : List (LCall × World)) (msgs : List Msg) (a : Active) (otp : Bytes) (pk : Option Point) (w : World) (p0 p1 : Fp)
      (o : Bytes × Bytes) (fin : List Msg) (ops : List PrfOp) (rc : List RlCall)
      (h : LActive D cfg n hist msgs a otp pk w p0 p1 o fin ops rc) : LInv D cfg n hist msgs (.active a)
  | closed (pre : List (LCall × World)) (wc : World) (post : List (LCall × World)) (msgs : List Msg) (a : Active)
      (rl rl' : RecordLayer) (t : TlsTranscript) (h : LInv D cfg n pre msgs (.active a)) (hc : a.close D wc = .ok (rl', t)) :
      LInv D cfg n (pre ++ (.closeConnection, wc) :: post) (msgs ++ [.closeConnection]) (.closed rl t)
  | error (hist : List (LCall × World)) (msgs : List Msg) : LInv D cfg n hist msgs .error

/-- A call on an active leader that is not one of the handshake. -/
theorem LActive.other {D : Deps} {cfg : Limits} {n : Nat} {hist : List (LCall × World)} {msgs : List Msg} {a : Active}
    {otp : Bytes} {pk : Option Point} {w : World} {p0 p1 : Fp} {o : Bytes × Bytes} {fin : List Msg} {ops : List PrfOp}
    {rc : List RlCall} (h : LActive D cfg n hist msgs a otp pk w p0 p1 o fin ops rc) (x : LCall × World)
    (hx : x.1.isHandshake = false) (ms : List Msg) (hms : ms.filter Msg.isHandshake = []) (c : Core)
    (hc : c = { a.core with rl := c.rl }) (rc' : List RlCall) (hrl : RlInv D cfg .leader otp rc' c) (ht : Trace rc' (hist ++ [x]) (msgs ++ ms)) :
    LActive D cfg n (hist ++ [x]) (msgs ++ ms) { a with core := c } otp pk w p0 p1 o fin ops rc' := by
  have eo : c.out = a.core.out := by rw [hc]
  have ep : c.prf = a.core.prf := by rw [hc]
  have ev : c.vm = a.core.vm := by rw [hc]
  have er : c.ready = a.core.ready := by rw [hc]
  refine ⟨h.core.congr eo ep ev, hrl, er.trans h.ready, h.crs, h.srs, h.led.mono _ (by rw [ev]; exact Grows.refl _), h.time, h.fins,
    ?_, ?_, h.hf, ht⟩
  · rw [handshakeCalls_skip hx]; exact h.calls
  · rw [List.filter_append, hms, List.append_nil]; exact h.told

theorem toArray32_some {b : Bytes} {h : Vector Byte 32} (e : toArray32 b = some h) : b = h.toList := by
  unfold toArray32 at e
  split at e
  · cases e; simp
  · cases e

theorem LActive.clientVd {D : Deps} {cfg : Limits} {n : Nat} {hist : List (LCall × World)} {msgs : List Msg} {a : Active}
    {otp : Bytes} {pk : Option Point} {w : World} {p0 p1 : Fp} {o : Bytes × Bytes} {fin : List Msg} {ops : List PrfOp}
    {rc : List RlCall} (h : LActive D cfg n hist msgs a otp pk w p0 p1 o fin ops rc) (hash : Bytes) (w' : World)
    (honce : VdOnce (hist ++ [(.clientFinishedVd hash, w')])) (hx : (a.clientFinishedVd D w' hash).2.2.Fine) :
    ∃ fin' ops', LActive D cfg n (hist ++ [(.clientFinishedVd hash, w')]) (msgs ++ (a.clientFinishedVd D w' hash).2.1)
      (a.clientFinishedVd D w' hash).1 otp pk w p0 p1 o fin' ops' rc := by
  unfold Active.clientFinishedVd at hx ⊢
  cases hh : toArray32 hash with
  | none => rw [hh] at hx; exact hx.elim
  | some v =>
    rw [hh] at hx
    simp only at hx ⊢
    cases hw : w'.ioOk with
    | false => rw [hw] at hx; exact hx.elim
    | true =>
      simp only [hw, Bool.not_true, Bool.false_eq_true, if_false] at hx ⊢
      cases h1 : a.core.clientVd D v with
      | err e => rw [h1] at hx; exact hx.elim
      | panic => rw [h1] at hx; exact hx.elim
      | ok r =>
        obtain rfl := toArray32_some hh
        have hcf : a.cf = none := by
          cases hc : a.cf with
          | none => rfl
          | some _ =>
            exfalso
            have hfin := h.fins
            have hcl : 0 < (clientVdCalls hist).length := by
              have : ∃ y ∈ handshakeCalls hist, ∃ b, y = .clientFinishedVd b := by
                rw [h.calls]
                rw [hc] at hfin
                generalize a.sf = x at hfin
                cases hfin with
                | c x => exact ⟨.clientFinishedVd x.toList, by simp [finCall], _, rfl⟩
                | cs x y => exact ⟨.clientFinishedVd x.toList, by simp [finCall], _, rfl⟩
                | sc x y => exact ⟨.clientFinishedVd x.toList, by simp [finCall], _, rfl⟩
              obtain ⟨y, hy, b, rfl⟩ := this
              have hy := List.mem_of_mem_filter hy
              obtain ⟨z, hz, hz'⟩ := List.mem_map.1 hy
              refine List.length_pos_of_mem (a := b) (List.mem_filterMap.2 ⟨z, hz, ?_⟩)
              simp [hz']
            have := honce.1
            rw [clientVdCalls_append, List.length_append] at this
            have e : (clientVdCalls [(.clientFinishedVd v.toList, w')]).length = 1 := rfl
            omega
        obtain ⟨q, hq, i2, g2, e2, k, cr', sr', v1, v2, v3, v4⟩ := Core.clientVd_ok h.core (h.hf.1 hcf) h1
        obtain ⟨b1, b2, b3, b4, b5⟩ := set_append ops (.cfHash v.toList) hq
        have ea : a.core.afterClientVd D v = r.1 := (clientVd_after (v := r.2) h1).symm
        simp only
        rw [ea]
        have eo : r.1.out = a.core.out := by rw [e2]
        have er : r.1.ready = a.core.ready := by rw [e2]
        have el : r.1.rl = a.core.rl := by rw [e2]
        have ec : cr' = a.clientRandom.toList := by rw [h.crs] at v2; cases v2; rfl
        have es : sr' = a.hs.random.toList := by rw [h.srs] at v3; cases v3; rfl
        have hl := h.led.mono (c' := r.1) [(.clientFinishedVd v.toList, w')] g2
        have ekk : k = (secretOf D .leader p0 p1 o).1 := by
          have := (outAt D.add n (·.1)).val.mono _ _ _ i2.le hl.secret
          exact Option.some.inj (v1.symm.trans this)
        subst ec es ekk
        refine ⟨fin ++ [.clientFinishedVd v], _, i2, h.rl.stays ⟨eo, g2, fun hr => er.trans hr⟩ el, er.trans h.ready, ?_, ?_, hl,
          h.time, ?_, ?_, ?_, ?_, h.trace.skip _ _ (fun _ => rfl) (fun _ => rfl) (fun _ => rfl) (fun _ => rfl) (fun h => by cases h) (by simp)⟩
        · rw [b1, h.crs]; simp [clientRandoms]
        · rw [b2, h.srs]; simp [serverRandoms]
        · simp only
          rw [v4]
          have hfin := h.fins
          rw [hcf] at hfin
          generalize a.sf = sf at hfin
          cases hfin with
          | none => exact .c v
          | s hs' => exact .sc v hs'
        · rw [handshakeCalls_append, h.calls]; simp [handshakeCalls, LCall.isHandshake, finCall]
        · rw [List.filter_append, h.told]; simp [Msg.isHandshake]
        · exact ⟨fun he => (by cases he), fun he => (by rw [b5, h.hf.2 he]; rfl)⟩

theorem LActive.serverVd {D : Deps} {cfg : Limits} {n : Nat} {hist : List (LCall × World)} {msgs : List Msg} {a : Active}
    {otp : Bytes} {pk : Option Point} {w : World} {p0 p1 : Fp} {o : Bytes × Bytes} {fin : List Msg} {ops : List PrfOp}
    {rc : List RlCall} (h : LActive D cfg n hist msgs a otp pk w p0 p1 o fin ops rc) (hash : Bytes) (w' : World)
    (honce : VdOnce (hist ++ [(.serverFinishedVd hash, w')])) (hx : (a.serverFinishedVd D w' hash).2.2.Fine) :
    ∃ fin' ops', LActive D cfg n (hist ++ [(.serverFinishedVd hash, w')]) (msgs ++ (a.serverFinishedVd D w' hash).2.1)
      (a.serverFinishedVd D w' hash).1 otp pk w p0 p1 o fin' ops' rc := by
  unfold Active.serverFinishedVd at hx ⊢
  cases hh : toArray32 hash with
  | none => rw [hh] at hx; exact hx.elim
  | some v =>
    rw [hh] at hx
    simp only at hx ⊢
    cases hw : w'.ioOk with
    | false => rw [hw] at hx; exact hx.elim
    | true =>
      simp only [hw, Bool.not_true, Bool.false_eq_true, if_false] at hx ⊢
      cases h1 : a.core.serverVd D v with
      | err e => rw [h1] at hx; exact hx.elim
      | panic => rw [h1] at hx; exact hx.elim
      | ok r =>
        obtain rfl := toArray32_some hh
        have hsf : a.sf = none := by
          cases hc : a.sf with
          | none => rfl
          | some _ =>
            exfalso
            have hfin := h.fins
            have hcl : 0 < (serverVdCalls hist).length := by
              have : ∃ y ∈ handshakeCalls hist, ∃ b, y = .serverFinishedVd b := by
                rw [h.calls]
                rw [hc] at hfin
                generalize a.cf = x at hfin
                cases hfin with
                | s x => exact ⟨.serverFinishedVd x.toList, by simp [finCall], _, rfl⟩
                | cs x y => exact ⟨.serverFinishedVd y.toList, by simp [finCall], _, rfl⟩
                | sc x y => exact ⟨.serverFinishedVd y.toList, by simp [finCall], _, rfl⟩
              obtain ⟨y, hy, b, rfl⟩ := this
              have hy := List.mem_of_mem_filter hy
              obtain ⟨z, hz, hz'⟩ := List.mem_map.1 hy
              refine List.length_pos_of_mem (a := b) (List.mem_filterMap.2 ⟨z, hz, ?_⟩)
              simp [hz']
            have := honce.2
            rw [serverVdCalls_append, List.length_append] at this
            have e : (serverVdCalls [(.serverFinishedVd v.toList, w')]).length = 1 := rfl
            omega
        obtain ⟨q, hq, i2, g2, e2, k, cr', sr', v1, v2, v3, v4⟩ := Core.serverVd_ok h.core (h.hf.2 hsf) h1
        obtain ⟨b1, b2, b3, b4, b5⟩ := set_append ops (.sfHash v.toList) hq
        have ea : a.core.afterServerVd D v = r.1 := (serverVd_after (v := r.2) h1).symm
        simp only
        rw [ea]
        have eo : r.1.out = a.core.out := by rw [e2]
        have er : r.1.ready = a.core.ready := by rw [e2]
        have el : r.1.rl = a.core.rl := by rw [e2]
        have ec : cr' = a.clientRandom.toList := by rw [h.crs] at v2; cases v2; rfl
        have es : sr' = a.hs.random.toList := by rw [h.srs] at v3; cases v3; rfl
        have hl := h.led.mono (c' := r.1) [(.serverFinishedVd v.toList, w')] g2
        have ekk : k = (secretOf D .leader p0 p1 o).1 := by
          have := (outAt D.add n (·.1)).val.mono _ _ _ i2.le hl.secret
          exact Option.some.inj (v1.symm.trans this)
        subst ec es ekk
        refine ⟨fin ++ [.serverFinishedVd v], _, i2, h.rl.stays ⟨eo, g2, fun hr => er.trans hr⟩ el, er.trans h.ready, ?_, ?_, hl,
          h.time, ?_, ?_, ?_, ?_, h.trace.skip _ _ (fun _ => rfl) (fun _ => rfl) (fun _ => rfl) (fun _ => rfl) (fun h => by cases h) (by simp)⟩
        · rw [b1, h.crs]; simp [clientRandoms]
        · rw [b2, h.srs]; simp [serverRandoms]
        · simp only
          rw [v4]
          have hfin := h.fins
          rw [hsf] at hfin
          generalize a.cf = cf at hfin
          cases hfin with
          | none => exact .s v
          | c hs' => exact .cs hs' v
        · rw [handshakeCalls_append, h.calls]; simp [handshakeCalls, LCall.isHandshake, finCall]
        · rw [List.filter_append, h.told]; simp [Msg.isHandshake]
        · exact ⟨fun he => (by rw [b4, h.hf.1 he]; rfl), fun he => (by cases he)⟩

/-- A call on an active leader, which stays active. -/
theorem LActive.step {D : Deps} {cfg : Limits} {n : Nat} {hist : List (LCall × World)} {msgs : List Msg} {a : Active}
    {otp : Bytes} {pk : Option Point} {w : World} {p0 p1 : Fp} {o : Bytes × Bytes} {fin : List Msg} {ops : List PrfOp}
    {rc : List RlCall} (h : LActive D cfg n hist msgs a otp pk w p0 p1 o fin ops rc) (d : Bool) (c : LCall) (w' : World)
    (honce : VdOnce (hist ++ [(c, w')])) (hc : c ≠ .closeConnection)
    (hx : ((⟨.active a, d⟩ : Leader).step D cfg w' c).2.2.Fine) :
    LInv D cfg n (hist ++ [(c, w')]) (msgs ++ ((⟨.active a, d⟩ : Leader).step D cfg w' c).2.1)
      ((⟨.active a, d⟩ : Leader).step D cfg w' c).1.state := by
  have same : ∀ x : LCall, x.isHandshake = false → (∀ n, outgoings n [x] = []) → (∀ n, incomings n [x] = []) → x ≠ .closeConnection →
      LInv D cfg n (hist ++ [(x, w')]) (msgs ++ []) (.active a) := fun x h1 h2 h3 h4 =>
    .active _ _ _ _ _ _ _ _ _ _ _ _ (h.other (x, w') h1 [] rfl a.core rfl rc h.rl (h.trace.skip _ _ h2 h3 (fun _ => rfl) (fun _ => rfl) h4 (by simp)))
  have inAct : ∀ f : Active → Active × List Msg × LResult, ((⟨.active a, d⟩ : Leader).inActive f).2.2.Fine →
      (f a).2.2.Fine ∧ ((⟨.active a, d⟩ : Leader).inActive f).1.state = .active (f a).1 ∧
        ((⟨.active a, d⟩ : Leader).inActive f).2.1 = (f a).2.1 := by
    intro f hf
    refine ⟨hf, ?_, rfl⟩
    have hf' : (f a).2.2.Fine := hf
    show (LState.active (f a).1).unlessPanicked (f a).2.2 = _
    revert hf'
    cases (f a).2.2 <;> first | exact fun h => h.elim | exact fun _ => rfl
  cases c with
  | alloc => exact hx.elim
  | preprocess => exact hx.elim
  | clientRandom => exact hx.elim
  | clientKeyShare => exact hx.elim
  | prepareEncryption => exact hx.elim
  | closeConnection => exact absurd rfl hc
  | isEmpty => exact same .isEmpty rfl (fun _ => rfl) (fun _ => rfl) (fun h => by cases h)
  | enableDecryption b => exact same (.enableDecryption b) rfl (fun _ => rfl) (fun _ => rfl) (fun h => by cases h)
  | finish => exact same .finish rfl (fun _ => rfl) (fun _ => rfl) (fun h => by cases h)
  | clientFinishedVd hash =>
    obtain ⟨h1, h2, h3⟩ := inAct _ hx
    obtain ⟨fin', ops', i⟩ := h.clientVd hash w' honce h1
    exact h2 ▸ h3 ▸ .active _ _ _ _ _ _ _ _ _ _ _ _ i
  | serverFinishedVd hash =>
    obtain ⟨h1, h2, h3⟩ := inAct _ hx
    obtain ⟨fin', ops', i⟩ := h.serverVd hash w' honce h1
    exact h2 ▸ h3 ▸ .active _ _ _ _ _ _ _ _ _ _ _ _ i
  | startTraffic =>
    obtain ⟨h1, h2, h3⟩ := inAct _ hx
    simp only [Leader.step]
    rw [h2, h3]
    unfold Active.startTraffic at h1 ⊢
    cases hw : w'.ioOk with
    | false => simp only [hw] at h1; exact h1.elim
    | true =>
      refine .active _ _ _ _ _ _ _ _ _ _ _ _ (h.other (.startTraffic, w') rfl [.startTraffic] rfl
        { a.core with rl := { a.core.rl with started := true } } rfl (rc ++ [.startTraffic]) ?_
        (h.trace.more _ _ _ (fun _ => rfl) (fun _ => rfl) (fun _ h => by cases h) (fun _ => rfl) (fun _ => rfl) (fun h => by cases h) (by simp)))
      exact h.rl.step (c' := { a.core with rl := { a.core.rl with started := true } }) ⟨rfl, Grows.refl _, id⟩ .startTraffic
        (fun k _ => ⟨rfl, trivial⟩)
  | pushOutgoing m =>
    obtain ⟨h1, h2, h3⟩ := inAct _ hx
    simp only [Leader.step]
    rw [h2, h3]
    unfold Active.pushOutgoing at h1 ⊢
    cases he : a.core.rl.pushEncrypt m.typ m.version m.payload.length (some m.payload) with
    | mk rl e =>
      cases e with
      | error e => simp only [he] at h1; exact h1.elim
      | ok u =>
        cases hw : w'.ioOk with
        | false => simp only [he, hw] at h1; exact h1.elim
        | true =>
          refine .active _ _ _ _ _ _ _ _ _ _ _ _ (h.other (.pushOutgoing m, w') rfl [_] rfl { a.core with rl } rfl
            (rc ++ [.pushEncrypt m.typ m.version m.payload.length (some m.payload)]) ?_
            (h.trace.more _ _ _ (fun _ => rfl) (fun _ => rfl) (fun _ h => by cases h) (fun _ => rfl) (fun _ => rfl) (fun h => by cases h) (by simp)))
          exact h.rl.push (c' := { a.core with rl }) _ (rl, .ok ()) (fun k => by simp only [RecordLayer.step, he]) rfl
  | pushIncoming m =>
    obtain ⟨h1, h2, h3⟩ := inAct _ hx
    simp only [Leader.step]
    rw [h2, h3]
    unfold Active.pushIncoming at h1 ⊢
    unfold opaqueIntoParts at h1 ⊢
    by_cases hl : m.payload.length < 8 + 16
    · rw [if_pos hl] at h1; exact h1.elim
    · rw [if_neg hl] at h1 ⊢
      simp only at h1 ⊢
      generalize hn : (m.payload.take (m.payload.length - 16)).take 8 = nonce at h1 ⊢
      generalize hct : (m.payload.take (m.payload.length - 16)).drop 8 = ct at h1 ⊢
      generalize htg : m.payload.drop (m.payload.length - 16) = tag at h1 ⊢
      have en : m.payload.take 8 = nonce := by rw [← hn, List.take_take]; congr 1; omega
      have ec : (m.payload.drop 8).take (m.payload.length - 24) = ct := by
        rw [← hct, List.drop_take]; congr 1
      cases he : a.core.rl.pushDecrypt m.typ m.version nonce ct tag with
      | mk rl e =>
        cases e with
        | error e => simp only [he] at h1; exact h1.elim
        | ok u =>
          cases hw : w'.ioOk with
          | false => simp only [he, hw] at h1; exact h1.elim
          | true =>
            refine .active _ _ _ _ _ _ _ _ _ _ _ _ (h.other (.pushIncoming m, w') rfl [_] rfl { a.core with rl } rfl
              (rc ++ [.pushDecrypt m.typ m.version nonce ct tag]) ?_
              (h.trace.more _ _ _ (fun _ => rfl) (fun i => ?_) (fun _ h => by cases h) (fun _ => rfl) (fun i => ?_) (fun h => by cases h) (by simp)))
            · exact h.rl.push (c' := { a.core with rl }) _ (rl, .ok ()) (fun k => by simp only [RecordLayer.step, he]) rfl
            · simp only [callReceivings, incomings, en, ec, htg]
            · simp only [receivings, incomings, en, ec, htg]
  | flush =>
    have hx' : ((⟨.active a, d⟩ : Leader).inActive (·.flush D w' d)).2.2.Fine := hx
    obtain ⟨h1, h2, h3⟩ := inAct _ hx'
    show LInv D cfg n _ (msgs ++ ((⟨.active a, d⟩ : Leader).inActive (·.flush D w' d)).2.1)
      ((⟨.active a, d⟩ : Leader).inActive (·.flush D w' d)).1.state
    rw [h2, h3]
    unfold Active.flush at h1 ⊢
    by_cases hwf : (!wantsFlush a.core.rl) = true
    · rw [if_pos hwf]
      exact same .flush rfl (fun _ => rfl) (fun _ => rfl) (fun h => by cases h)
    · rw [if_neg hwf] at h1 ⊢
      cases hw : w'.ioOk with
      | false => simp only [hw] at h1; exact h1.elim
      | true =>
        simp only [hw, Bool.not_true, Bool.false_eq_true, if_false] at h1 ⊢
        have key : a.core.flush D w' d = .ok (a.core.flushActive D w' d).1 := by
          unfold Core.flush
          rw [if_pos h.ready]
          unfold Core.flushActive at h1 ⊢
          cases hf : a.core.fns D with
          | none => rw [hf] at h1; exact h1.elim
          | some k =>
            rw [hf] at h1
            simp only at h1 ⊢
            cases he : a.core.rl.flush k D.peerData ⟨true, w'.mpcOk⟩ d with
            | mk rl e =>
              cases e with
              | error e => rw [he] at h1; exact h1.elim
              | ok u => rfl
        obtain ⟨i1, i2⟩ := h.rl.flush h.trace.nocommit key
        exact .active _ _ _ _ _ _ _ _ _ _ _ _ (h.other (.flush, w') rfl [.flush d] rfl _ i2 _ i1
          (h.trace.more _ _ _ (fun _ => rfl) (fun _ => rfl) (fun _ h => by cases h) (fun _ => rfl) (fun _ => rfl) (fun h => by cases h) (by simp)))
  | nextIncoming =>
    simp only [Leader.step, Leader.nextIncoming, LState.layer] at hx ⊢
    have key : ∀ rl o, a.core.rl.nextDecrypted = (rl, o) →
        LInv D cfg n (hist ++ [(.nextIncoming, w')]) (msgs ++ []) (.active { a with core := { a.core with rl } }) := by
      intro rl o he
      refine .active _ _ _ _ _ _ _ _ _ _ _ _ (h.other (.nextIncoming, w') rfl [] rfl { a.core with rl } rfl
        (rc ++ [.nextDecrypted]) ?_ (h.trace.more _ _ _ (fun _ => rfl) (fun _ => rfl) (fun _ h => by cases h) (fun _ => rfl) (fun _ => rfl) (fun h => by cases h) (by simp)))
      exact h.rl.step (c' := { a.core with rl }) ⟨rfl, Grows.refl _, id⟩ .nextDecrypted
        (fun k _ => by simp only [RecordLayer.step, he]; exact ⟨trivial, trivial⟩)
    revert hx
    cases he : a.core.rl.nextDecrypted with
    | mk rl o =>
      cases o with
      | none => exact fun _ => key _ _ he
      | some r =>
        simp only
        cases r.plaintext with
        | none => exact fun hx => hx.elim
        | some p => exact fun _ => key _ _ he
  | nextOutgoing =>
    simp only [Leader.step, Leader.nextOutgoing, LState.layer] at hx ⊢
    have key : ∀ rl o, a.core.rl.nextEncrypted = (rl, o) →
        LInv D cfg n (hist ++ [(.nextOutgoing, w')]) (msgs ++ []) (.active { a with core := { a.core with rl } }) := by
      intro rl o he
      refine .active _ _ _ _ _ _ _ _ _ _ _ _ (h.other (.nextOutgoing, w') rfl [] rfl { a.core with rl } rfl
        (rc ++ [.nextEncrypted]) ?_ (h.trace.more _ _ _ (fun _ => rfl) (fun _ => rfl) (fun _ h => by cases h) (fun _ => rfl) (fun _ => rfl) (fun h => by cases h) (by simp)))
      exact h.rl.step (c' := { a.core with rl }) ⟨rfl, Grows.refl _, id⟩ .nextEncrypted
        (fun k _ => by simp only [RecordLayer.step, he]; exact ⟨trivial, trivial⟩)
    revert hx
    cases he : a.core.rl.nextEncrypted with
    | mk rl o =>
      cases o with
      | none => exact fun _ => key _ _ he
      | some r =>
        simp only
        cases r.tag with
        | none => exact fun hx => hx.elim
        | some p => exact fun _ => key _ _ he

theorem LResult.of_fine {α : Type} {r : Outcome Err α} (h : (LResult.of r).Fine) : ∃ x, r = .ok x := by
  cases r with
  | ok x => exact ⟨x, rfl⟩
  | err e => exact h.elim
  | panic => exact h.elim

/-- One call. -/
theorem LInv.step {D : Deps} {cfg : Limits} {n : Nat} {hist : List (LCall × World)} {msgs : List Msg} {l : Leader}
    (h : LInv D cfg n hist msgs l.state) (c : LCall) (w : World) (honce : VdOnce (hist ++ [(c, w)]))
    (hx : (l.step D cfg w c).2.2.Fine) : LInv D cfg n (hist ++ [(c, w)]) (msgs ++ (l.step D cfg w c).2.1) (l.step D cfg w c).1.state := by
  obtain ⟨st, d⟩ := l
  cases h with
  | error =>
    cases c <;> first | exact hx.elim | exact .error _ _
  | init _ _ sk vm hvm hn hh hm ht =>
    have same : ∀ x : LCall, x.isHandshake = false → (∀ n, outgoings n [x] = []) → (∀ n, incomings n [x] = []) → x ≠ .closeConnection →
        LInv D cfg n (hist ++ [(x, w)]) (msgs ++ []) (.init sk vm) := fun x h1 h2 h3 h4 =>
      .init _ _ sk vm hvm hn (by rw [handshakeCalls_skip h1]; exact hh) (by rw [List.append_nil]; exact hm) (ht.skip _ _ h2 h3 (fun _ => rfl) (fun _ => rfl) h4 (by simp))
    cases c <;> first | exact hx.elim | exact same _ rfl (fun _ => rfl) (fun _ => rfl) (fun h => by cases h) | skip
    rename_i cr otp
    obtain ⟨c, hc, hinv, hr, hrl, hk, hro⟩ := Core.alloc_ok (D := D) (cfg := cfg) (role := .leader) (sk := sk) (otp := otp) hvm
    simp only [Leader.step, Leader.alloc, hc]
    subst hn
    refine .setup _ _ c cr otp hinv hr hrl hk hro ?_ (by rw [List.append_nil]; exact hm) (ht.skip _ _ (fun _ => rfl) (fun _ => rfl) (fun _ => rfl) (fun _ => rfl) (fun h => by cases h) (by simp))
    rw [handshakeCalls_append, hh]; rfl
  | setup _ _ co cr otp hc hr hrl hk hro hh hm ht =>
    have same : ∀ x : LCall, x.isHandshake = false → (∀ n, outgoings n [x] = []) → (∀ n, incomings n [x] = []) → x ≠ .closeConnection →
        LInv D cfg n (hist ++ [(x, w)]) (msgs ++ []) (.setup co cr) := fun x h1 h2 h3 h4 =>
      .setup _ _ co cr otp hc hr hrl hk hro (by rw [handshakeCalls_skip h1]; exact hh) (by rw [List.append_nil]; exact hm)
        (ht.skip _ _ h2 h3 (fun _ => rfl) (fun _ => rfl) h4 (by simp))
    cases c <;> first | exact hx.elim | exact same _ rfl (fun _ => rfl) (fun _ => rfl) (fun h => by cases h) | skip
    rename_i pk
    simp only [Leader.step, Leader.preprocess] at hx ⊢
    cases hp : co.preprocess pk with
    | err e => rw [hp] at hx; exact hx.elim
    | panic => rw [hp] at hx; exact hx.elim
    | ok c1 =>
      rw [hp] at hx
      cases hw : w.ioOk with
      | false => simp only [hw] at hx; exact hx.elim
      | true =>
        unfold Core.preprocess Kx.setup at hp
        rw [hk] at hp
        cases pk with
        | none => cases hp
        | some p =>
          simp only [Outcome.ok.injEq] at hp
          subst hp
          have hinv : CoreInv D cfg n ([] ++ [.clientRandom cr.toList]) _ :=
            (hc.congr (c' := { co with ke := { co.ke with state := .followerKey (match co.ke.role with | .leader => p | .follower => co.ke.publicKey) (slotsAt D.add n) } })
              rfl rfl rfl).setClientRandom rfl cr
          refine .ready _ _ _ cr otp (some p) [] hinv hr ?_ ⟨_, rfl⟩ hro ?_ ?_ (ht.skip _ _ (fun _ => rfl) (fun _ => rfl) (fun _ => rfl) (fun _ => rfl) (fun h => by cases h) (by simp))
          · intro k _
            exact ⟨hrl.symm, fun _ hx => (by cases hx)⟩
          · rw [handshakeCalls_append, hh]; rfl
          · rw [List.filter_append, hm]; rfl
  | ready _ _ co cr otp pk rc hc hr hrl hk hro hh hm ht =>
    have same : ∀ x : LCall, x.isHandshake = false → (∀ n, outgoings n [x] = []) → (∀ n, incomings n [x] = []) → x ≠ .closeConnection →
        LInv D cfg n (hist ++ [(x, w)]) (msgs ++ []) (.ready co cr) := fun x h1 h2 h3 h4 =>
      .ready _ _ co cr otp pk rc hc hr hrl hk hro (by rw [handshakeCalls_skip h1]; exact hh) (by rw [List.append_nil]; exact hm)
        (ht.skip _ _ h2 h3 (fun _ => rfl) (fun _ => rfl) h4 (by simp))
    cases c <;> first | exact hx.elim | exact same _ rfl (fun _ => rfl) (fun _ => rfl) (fun h => by cases h) | skip
    · rename_i hs
      simp only [Leader.step, Leader.prepareEncryption] at hx ⊢
      by_cases hg : hs.key.group ≠ .secp256r1
      · rw [if_pos hg] at hx; exact hx.elim
      · rw [if_neg hg] at hx ⊢
        cases hw : w.ioOk with
        | false => simp only [hw] at hx; exact hx.elim
        | true =>
          simp only [hw, Bool.not_true, Bool.false_eq_true, if_false] at hx ⊢
          obtain ⟨c2, h2⟩ := LResult.of_fine hx
          rw [h2]
          obtain ⟨c1, h1, h2⟩ := Outcome.bind_eq_ok.mp h2
          obtain ⟨i1, e1⟩ := Core.setServerRandom_ok hc rfl h1
          obtain ⟨fk, hkey⟩ := hk
          have hkey1 : c1.ke.state = .followerKey fk (slotsAt D.add n) := by rw [e1]; exact hkey
          obtain ⟨q, p0, p1, o, hq, i2, ex⟩ := Core.exchange_ok i1 hkey1 h2
          obtain ⟨b1, b2, b3, b4, b5⟩ := set_quiet ([.clientRandom cr.toList] ++ [.serverRandom hs.random.toList]) hq
          have hrole : c1.ke.role = .leader := by rw [e1]; exact hro
          have hg1 : Grows co.vm c2.vm := by
            have : co.vm = c1.vm := by rw [e1]
            rw [this]; exact ex.grows
          have hag := ex.agree
          have hsec := ex.secret
          rw [hrole] at hag hsec
          refine .active _ _ ⟨c2, cr, none, none, w.now, hs⟩ otp pk w p0 p1 o [] _ rc ⟨i2, ?_, ex.ready, ?_, ?_,
            ⟨by simp, by simpa using hg, ex.parsed, ex.share0, ex.share1, ex.peer, hag, hsec⟩, rfl, .none, ?_, ?_, ⟨fun _ => ?_, fun _ => ?_⟩,
            ht.skip _ _ (fun _ => rfl) (fun _ => rfl) (fun _ => rfl) (fun _ => rfl) (fun h => by cases h) (by simp)⟩
          · exact hrl.stays ⟨ex.out.trans (by rw [e1]), hg1, fun _ => ex.ready⟩ (ex.rl.trans (by rw [e1]))
          · rw [b1]; rfl
          · rw [b2]; rfl
          · rw [handshakeCalls_append, hh]; rfl
          · rw [List.filter_append, hm]; rfl
          · rw [b4]; rfl
          · rw [b5]; rfl
    · have key : ∀ rl o, co.rl.nextDecrypted = (rl, o) →
          LInv D cfg n (hist ++ [(.nextIncoming, w)]) (msgs ++ []) (.ready { co with rl } cr) := by
        intro rl o he
        refine .ready _ _ { co with rl } cr otp pk (rc ++ [.nextDecrypted]) (hc.congr rfl rfl rfl) hr ?_ hk hro
          (by rw [handshakeCalls_skip rfl]; exact hh) (by rw [List.append_nil]; exact hm)
          (ht.more _ _ _ (fun _ => rfl) (fun _ => rfl) (fun _ h => by cases h) (fun _ => rfl) (fun _ => rfl) (fun h => by cases h) (by simp))
        exact hrl.step (c' := { co with rl }) ⟨rfl, Grows.refl _, id⟩ .nextDecrypted
          (fun k _ => by simp only [RecordLayer.step, he]; exact ⟨trivial, trivial⟩)
      simp only [Leader.step, Leader.nextIncoming, LState.layer] at hx ⊢
      revert hx
      cases he : co.rl.nextDecrypted with
      | mk rl o =>
        cases o with
        | none => exact fun _ => key _ _ he
        | some r =>
          simp only
          cases r.plaintext with
          | none => exact fun hx => hx.elim
          | some p => exact fun _ => key _ _ he
    · have key : ∀ rl o, co.rl.nextEncrypted = (rl, o) →
          LInv D cfg n (hist ++ [(.nextOutgoing, w)]) (msgs ++ []) (.ready { co with rl } cr) := by
        intro rl o he
        refine .ready _ _ { co with rl } cr otp pk (rc ++ [.nextEncrypted]) (hc.congr rfl rfl rfl) hr ?_ hk hro
          (by rw [handshakeCalls_skip rfl]; exact hh) (by rw [List.append_nil]; exact hm)
          (ht.more _ _ _ (fun _ => rfl) (fun _ => rfl) (fun _ h => by cases h) (fun _ => rfl) (fun _ => rfl) (fun h => by cases h) (by simp))
        exact hrl.step (c' := { co with rl }) ⟨rfl, Grows.refl _, id⟩ .nextEncrypted
          (fun k _ => by simp only [RecordLayer.step, he]; exact ⟨trivial, trivial⟩)
      simp only [Leader.step, Leader.nextOutgoing, LState.layer] at hx ⊢
      revert hx
      cases he : co.rl.nextEncrypted with
      | mk rl o =>
        cases o with
        | none => exact fun _ => key _ _ he
        | some r =>
          simp only
          cases r.tag with
          | none => exact fun hx => hx.elim
          | some p => exact fun _ => key _ _ he
  | active _ _ a otp pk w0 p0 p1 o fin ops rc h =>
    by_cases hc : c = .closeConnection
    · subst hc
      simp only [Leader.step, Leader.closeConnection] at hx ⊢
      cases hw : w.ioOk with
      | false => simp only [hw] at hx; exact hx.elim
      | true =>
        simp only [hw, Bool.not_true, Bool.false_eq_true, if_false] at hx ⊢
        obtain ⟨⟨rl, t⟩, h2⟩ := LResult.of_fine hx
        rw [h2]
        exact .closed hist w [] msgs a rl rl t (.active _ _ a otp pk w0 p0 p1 o fin ops rc h) h2
    · exact h.step d c w honce hc hx
  | closed pre wc post msgs a rl rl' t h hcl =>
    have same : ∀ rl, LInv D cfg n (pre ++ (.closeConnection, wc) :: post ++ [(c, w)]) (msgs ++ [.closeConnection] ++ []) (.closed rl t) := by
      intro rl
      rw [List.append_nil, List.append_assoc]
      exact .closed pre wc (post ++ [(c, w)]) msgs a rl rl' t h hcl
    cases c <;> first | exact hx.elim | exact same _ | exact .error _ _ | skip
    · simp only [Leader.step, Leader.nextIncoming, LState.layer] at hx ⊢
      revert hx
      cases rl.nextDecrypted with
      | mk x1 x2 =>
        cases x2 with
        | none => exact fun _ => same _
        | some r =>
          simp only
          cases r.plaintext with
          | none => exact fun hx => hx.elim
          | some _ => exact fun _ => same _
    · simp only [Leader.step, Leader.nextOutgoing, LState.layer] at hx ⊢
      revert hx
      cases rl.nextEncrypted with
      | mk x1 x2 =>
        cases x2 with
        | none => exact fun _ => same _
        | some r =>
          simp only
          cases r.tag with
          | none => exact fun hx => hx.elim
          | some _ => exact fun _ => same _

end Tlsn.Mpc
