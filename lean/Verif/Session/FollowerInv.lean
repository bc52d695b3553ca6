import Verif.Session.Layer
import Verif.Session.Spec

/-! # The invariant of a follower -/

namespace Tlsn.Mpc

open Hmac Kex

/-! ## Messages and calls on the record layer -/

/-- The call on the record layer that a message causes. -/
def rlCall : Msg × World → Option RlCall
  | (.encrypt t v l p, _) => some (.pushEncrypt t v l p)
  | (.decrypt t v n c g, _) => some (.pushDecrypt t v n c g)
  | (.startTraffic, _) => some .startTraffic
  | (.flush d, w) => some (.flush ⟨true, w.mpcOk⟩ d)
  | _ => none

/-- The records that calls ask to encrypt. -/
def callSendings (n : Nat) : List RlCall → List Sending
  | [] => []
  | .pushEncrypt t v l p :: cs => ⟨n, t, v, l, p⟩ :: callSendings (n + 1) cs
  | _ :: cs => callSendings n cs

/-- The records that calls ask to decrypt. -/
def callReceivings (n : Nat) : List RlCall → List Receiving
  | [] => []
  | .pushDecrypt t v nc ct tg :: cs => ⟨n, t, v, nc, ct, tg⟩ :: callReceivings (n + 1) cs
  | _ :: cs => callReceivings n cs

theorem callSendings_msgs (input : List (Msg × World)) (n : Nat) :
    callSendings n (input.filterMap rlCall) = sendings n (input.map (·.1)) := by
  induction input generalizing n with
  | nil => rfl
  | cons x xs ih =>
    obtain ⟨m, w⟩ := x
    cases m <;> simp [List.filterMap_cons, rlCall, callSendings, sendings, ih]

theorem callReceivings_msgs (input : List (Msg × World)) (n : Nat) :
    callReceivings n (input.filterMap rlCall) = receivings n (input.map (·.1)) := by
  induction input generalizing n with
  | nil => rfl
  | cons x xs ih =>
    obtain ⟨m, w⟩ := x
    cases m <;> simp [List.filterMap_cons, rlCall, callReceivings, receivings, ih]

theorem ofExcept_fine {e : Except RlError Unit} (h : Fine (.ofExcept e)) : RlResult.ofExcept e = .done := by
  rcases e with _ | ⟨⟩
  · exact h.elim
  · rfl

/-- If no call failed then all records were accepted. -/
theorem accepted_fine (k : SessionFns) (peer : Nat → Bytes) (calls : List RlCall) (r : RecordLayer) (n : Nat)
    (h : ∀ x ∈ r.history k peer calls, Fine x.2) : accepted n (r.history k peer calls) = callSendings n calls := by
  induction calls generalizing r n with
  | nil => rfl
  | cons c cs ih =>
    have e : r.history k peer (c :: cs) = (c, (r.step k peer c).2) :: (r.step k peer c).1.history k peer cs := rfl
    rw [e] at h ⊢
    have h1 := h _ List.mem_cons_self
    have h2 := fun n => ih (r.step k peer c).1 n (fun x hx => h x (List.mem_cons_of_mem _ hx))
    cases c with
    | pushEncrypt t v l p =>
      have : (r.step k peer (.pushEncrypt t v l p)).2 = .done := ofExcept_fine h1
      rw [this]
      simp only [accepted, callSendings, h2]
    | _ => simp only [accepted, callSendings, h2]

theorem incoming_fine (k : SessionFns) (peer : Nat → Bytes) (calls : List RlCall) (r : RecordLayer) (n : Nat)
    (h : ∀ x ∈ r.history k peer calls, Fine x.2) : incoming n (r.history k peer calls) = callReceivings n calls := by
  induction calls generalizing r n with
  | nil => rfl
  | cons c cs ih =>
    have e : r.history k peer (c :: cs) = (c, (r.step k peer c).2) :: (r.step k peer c).1.history k peer cs := rfl
    rw [e] at h ⊢
    have h1 := h _ List.mem_cons_self
    have h2 := fun n => ih (r.step k peer c).1 n (fun x hx => h x (List.mem_cons_of_mem _ hx))
    cases c with
    | pushDecrypt t v nc ct tg =>
      have : (r.step k peer (.pushDecrypt t v nc ct tg)).2 = .done := ofExcept_fine h1
      rw [this]
      simp only [incoming, callReceivings, h2]
    | _ => simp only [incoming, callReceivings, h2]

/-! ## Lengths -/

theorem sizes_append {a b : List PrfOp} (ha : Sizes a) (hb : Sizes b) : Sizes (a ++ b) := by
  intro r hr
  have ha := ha r
  have hb := hb r
  simp only [clientRandoms, serverRandoms, sessionHashes, cfHashes, sfHashes, List.filterMap_append, List.mem_append] at *
  tauto

theorem sizes_quiet {a : List PrfOp} (h : Quiet a) : Sizes a := by
  obtain ⟨h1, h2, h3, h4, h5⟩ := h
  intro r hr
  rw [h1, h2, h3, h4, h5] at hr
  cases hr

theorem sizes_one {op : PrfOp} (h : ∀ v, op = .clientRandom v ∨ op = .serverRandom v ∨ op = .sessionHash v ∨ op = .cfHash v ∨
    op = .sfHash v → v.length = 32) {q : List PrfOp} (hq : Quiet q) : Sizes (op :: q) := by
  have : Sizes [op] := by
    intro r hr
    apply h r
    cases op <;> simp [clientRandoms, serverRandoms, sessionHashes, cfHashes, sfHashes] at hr <;> simp [hr]
  exact sizes_append this (sizes_quiet hq)

theorem quiet_nil : Quiet [] := ⟨rfl, rfl, rfl, rfl, rfl⟩

/-! ## The invariant -/

/-- The finished messages so far, and the verify data that belong to them. -/
inductive Fin (S : Sha) (m : Bytes) : List Msg → Option Bytes → Option Bytes → Prop
  | none : Fin S m [] none none
  | c (hc : Vector Byte 32) : Fin S m [.clientFinishedVd hc] (some (S.clientVerifyData m hc.toList)) none
  | s (hs : Vector Byte 32) : Fin S m [.serverFinishedVd hs] none (some (S.serverVerifyData m hs.toList))
  | cs (hc hs : Vector Byte 32) : Fin S m [.clientFinishedVd hc, .serverFinishedVd hs]
      (some (S.clientVerifyData m hc.toList)) (some (S.serverVerifyData m hs.toList))
  | sc (hc hs : Vector Byte 32) : Fin S m [.serverFinishedVd hs, .clientFinishedVd hc]
      (some (S.clientVerifyData m hc.toList)) (some (S.serverVerifyData m hs.toList))

/-- A server hello that was accepted. -/
structure Helloed (D : Deps) (n : Nat) (hist : List (Msg × World)) (c : Core) (hello : Hello) (w : World) (p0 p1 : Fp)
    (o : Bytes × Bytes) : Prop where
  mem : (.serverHello hello, w) ∈ hist
  near : tooFar hello.time w.now = false
  group : hello.key.group = .secp256r1
  parsed : (D.parseKey hello.key.key).isSome = true
  share0 : w.share0 = .ok p0
  share1 : w.share1 = .ok p1
  peer : ∀ v, w.peerShares = some v → o = v
  agree : (secretOf D .follower p0 p1 o).1 = (secretOf D .follower p0 p1 o).2.1
  secret : c.vm.recv (outAt D.add n (·.1)).val = some (secretOf D .follower p0 p1 o).1

/-- How far the handshake has come. -/
inductive Stage (D : Deps) (n : Nat) (hist : List (Msg × World)) (ops : List PrfOp) : Follower → Prop
  | init (core : Core) (hk : ∃ fk, core.ke.state = .followerKey fk (slotsAt D.add n)) (hr : core.ready = false)
      (hs : handshakes hist = []) (hf : cfHashes ops = [] ∧ sfHashes ops = []) : Stage D n hist ops ⟨core, none, none, none, none⟩
  | random (core : Core) (cr : Vector Byte 32) (hk : ∃ fk, core.ke.state = .followerKey fk (slotsAt D.add n))
      (hr : core.ready = false) (hs : handshakes hist = [.setClientRandom cr]) (hf : cfHashes ops = [] ∧ sfHashes ops = []) :
      Stage D n hist ops ⟨core, some cr, none, none, none⟩
  | hello (core : Core) (cr : Vector Byte 32) (hello : Hello) (w : World) (p0 p1 : Fp) (o : Bytes × Bytes) (fin : List Msg)
      (cf sf : Option Bytes) (hh : Helloed D n hist core hello w p0 p1 o) (hr : core.ready = true)
      (hfin : Fin D.sha (D.sha.masterSecret (secretOf D .follower p0 p1 o).1 cr.toList hello.random.toList) fin cf sf)
      (hs : handshakes hist = .setClientRandom cr :: .serverHello hello :: fin)
      (hf : (cf = none → cfHashes ops = []) ∧ (sf = none → sfHashes ops = [])) :
      Stage D n hist ops ⟨core, some cr, some hello, cf, sf⟩

structure FInv (D : Deps) (cfg : Limits) (n : Nat) (hist : List (Msg × World)) (ops : List PrfOp) (f : Follower) : Prop where
  core : CoreInv D cfg n ops f.core
  rl : RlInv D cfg .follower [] (hist.filterMap rlCall) f.core
  role : f.core.ke.role = .follower
  crs : clientRandoms ops = f.clientRandom.toList.map (·.toList)
  srs : serverRandoms ops = f.hello.toList.map (·.random.toList)
  stage : Stage D n hist ops f
  sizes : Sizes ops

theorem no_commit (hist : List (Msg × World)) (e : FlushEnv) : RlCall.commit e ∉ hist.filterMap rlCall := by
  intro h
  obtain ⟨⟨m, w⟩, -, h⟩ := List.mem_filterMap.1 h
  cases m <;> cases h

theorem handshakes_append (a b : List (Msg × World)) : handshakes (a ++ b) = handshakes a ++ handshakes b := by
  simp [handshakes]

theorem Helloed.mono {D : Deps} {n : Nat} {hist : List (Msg × World)} {c c' : Core} {hello : Hello} {w : World} {p0 p1 : Fp}
    {o : Bytes × Bytes} (h : Helloed D n hist c hello w p0 p1 o) (x : List (Msg × World)) (hg : Grows c.vm c'.vm) :
    Helloed D n (hist ++ x) c' hello w p0 p1 o := by
  obtain ⟨a, b, c1, d, e, f, g, i, j⟩ := h
  exact ⟨List.mem_append_left _ a, b, c1, d, e, f, g, i, (outAt D.add n (·.1)).val.mono _ _ _ hg.2 j⟩

/-- A message that is not one of the handshake. -/
theorem FInv.other {D : Deps} {cfg : Limits} {n : Nat} {hist : List (Msg × World)} {ops : List PrfOp} {f : Follower}
    (h : FInv D cfg n hist ops f) (m : Msg) (w : World) (hm : m.isHandshake = false) (c : Core) (hc : c = { f.core with rl := c.rl })
    (hrl : RlInv D cfg .follower [] ((hist ++ [(m, w)]).filterMap rlCall) c) :
    FInv D cfg n (hist ++ [(m, w)]) ops { f with core := c } := by
  have e : handshakes (hist ++ [(m, w)]) = handshakes hist := by
    rw [handshakes_append]; simp [handshakes, hm]
  have eo : c.out = f.core.out := by rw [hc]
  have ep : c.prf = f.core.prf := by rw [hc]
  have ev : c.vm = f.core.vm := by rw [hc]
  have ek : c.ke = f.core.ke := by rw [hc]
  have er : c.ready = f.core.ready := by rw [hc]
  refine ⟨h.core.congr eo ep ev, hrl, (by rw [show ({ f with core := c } : Follower).core = c from rfl, ek]; exact h.role),
    h.crs, h.srs, ?_, h.sizes⟩
  have hst := h.stage
  cases hst with
  | init core hk hr hs hf => exact .init c (by rw [ek]; exact hk) (by rw [er]; exact hr) (by rw [e]; exact hs) hf
  | random core cr hk hr hs hf => exact .random c cr (by rw [ek]; exact hk) (by rw [er]; exact hr) (by rw [e]; exact hs) hf
  | hello core cr hello w' p0 p1 o fin cf sf hh hr hfin hs hf =>
    exact .hello c cr hello w' p0 p1 o fin cf sf (hh.mono _ (by rw [ev]; exact Grows.refl _)) (by rw [er]; exact hr) hfin
      (by rw [e]; exact hs) hf

theorem vec_inj {a b : Vector Byte 32} (h : a.toList = b.toList) : a = b := Vector.toList_inj.1 h

/-- One message. -/
theorem FInv.step {D : Deps} {cfg : Limits} {n : Nat} {hist : List (Msg × World)} {ops : List PrfOp} {f f' : Follower}
    (h : FInv D cfg n hist ops f) (m : Msg) (w : World) (hm : m ≠ .closeConnection) (hx : f.step D w m = .ok f') :
    ∃ ops', FInv D cfg n (hist ++ [(m, w)]) ops' f' := by
  have hst := h.stage
  have hfm : ∀ x, (hist ++ [x]).filterMap rlCall = hist.filterMap rlCall ++ (rlCall x).toList := by
    intro x
    rw [List.filterMap_append]
    cases hx : rlCall x <;> simp [hx]
  cases m with
  | closeConnection => exact absurd rfl hm
  | encrypt t v l p =>
    obtain ⟨c, h1, hx⟩ := Outcome.bind_eq_ok.mp hx
    cases hx
    refine ⟨ops, h.other _ w rfl c (by rw [(liftRl_ok h1).2]) ?_⟩
    rw [hfm]
    exact h.rl.push _ _ (fun _ => rfl) h1
  | decrypt t v nc ct tg =>
    obtain ⟨c, h1, hx⟩ := Outcome.bind_eq_ok.mp hx
    cases hx
    refine ⟨ops, h.other _ w rfl c (by rw [(liftRl_ok h1).2]) ?_⟩
    rw [hfm]
    exact h.rl.push _ _ (fun _ => rfl) h1
  | startTraffic =>
    cases hx
    refine ⟨ops, h.other _ w rfl _ rfl ?_⟩
    rw [hfm]
    exact h.rl.step (c' := { f.core with rl := { f.core.rl with started := true } }) ⟨rfl, Grows.refl _, id⟩ .startTraffic (fun k _ => ⟨rfl, trivial⟩)
  | flush d =>
    obtain ⟨c, h1, hx⟩ := Outcome.bind_eq_ok.mp hx
    cases hx
    obtain ⟨a, b⟩ := h.rl.flush (no_commit hist) h1
    refine ⟨ops, h.other _ w rfl c b ?_⟩
    rw [hfm]
    exact a
  | setClientRandom random =>
    simp only [Follower.step] at hx
    split at hx
    · cases hx
    · rename_i hn
      cases hx
      have hcr : clientRandoms ops = [] := by
        have := h.crs
        cases hc : f.clientRandom with
        | none => rw [hc] at this; exact this
        | some _ => rw [hc] at hn; exact absurd rfl hn
      obtain ⟨a1, a2, a3, a4, a5⟩ := set_append ops (.clientRandom random.toList) (q := []) ⟨rfl, rfl, rfl, rfl, rfl⟩
      refine ⟨ops ++ [.clientRandom random.toList], h.core.setClientRandom hcr random, ?_, h.role, ?_, ?_, ?_,
        sizes_append h.sizes (sizes_one (by simp) quiet_nil)⟩
      · rw [hfm]
        simp only [rlCall, Option.toList, List.append_nil]
        exact h.rl.stays ⟨rfl, Grows.refl _, id⟩ rfl
      · rw [a1, hcr]; rfl
      · rw [a2, h.srs]; simp [serverRandoms]
      · cases hst with
        | init core hk hr hs hf =>
          refine .random _ random hk hr ?_ ⟨by rw [a4, hf.1]; rfl, by rw [a5, hf.2]; rfl⟩
          rw [handshakes_append, hs]; rfl
        | random => exact absurd rfl hn
        | hello => exact absurd rfl hn
  | serverHello hello =>
    simp only [Follower.step] at hx
    split at hx
    · cases hx
    · rename_i hn
      split at hx
      · cases hx
      · rename_i hnear
        obtain ⟨c1, h1, hx⟩ := Outcome.bind_eq_ok.mp hx
        split at hx
        · cases hx
        · rename_i hg
          obtain ⟨c2, h2, hx⟩ := Outcome.bind_eq_ok.mp hx
          cases hx
          have hsr : serverRandoms ops = [] := by
            have := h.srs
            cases hc : f.hello with
            | none => rw [hc] at this; exact this
            | some _ => rw [hc] at hn; exact absurd rfl hn
          obtain ⟨i1, e1⟩ := Core.setServerRandom_ok h.core hsr h1
          obtain ⟨a1, a2, a3, a4, a5⟩ := set_append ops (.serverRandom hello.random.toList) (q := []) ⟨rfl, rfl, rfl, rfl, rfl⟩
          have hkey : ∃ fk, c1.ke.state = .followerKey fk (slotsAt D.add n) := by
            rw [e1]
            cases hst with
            | init core hk => exact hk
            | random core cr hk => exact hk
            | hello => exact absurd rfl hn
          obtain ⟨fk, hkey⟩ := hkey
          obtain ⟨q, p0, p1, o, hq, i2, ex⟩ := Core.exchange_ok i1 hkey h2
          obtain ⟨b1, b2, b3, b4, b5⟩ := set_quiet (ops ++ [.serverRandom hello.random.toList]) hq
          have hrole : c1.ke.role = .follower := by rw [e1]; exact h.role
          have hg1 : Grows f.core.vm c2.vm := by
            have : f.core.vm = c1.vm := by rw [e1]
            rw [this]; exact ex.grows
          have hag := ex.agree
          have hsec := ex.secret
          rw [hrole] at hag hsec
          have hhd : Helloed D n (hist ++ [(.serverHello hello, w)]) c2 hello w p0 p1 o :=
            ⟨by simp, by simpa using hnear, by simpa using hg, ex.parsed, ex.share0, ex.share1, ex.peer, hag, hsec⟩
          refine ⟨_, i2, ?_, ex.role.trans hrole, ?_, ?_, ?_,
            sizes_append (sizes_append h.sizes (sizes_one (by simp) quiet_nil)) (sizes_quiet hq)⟩
          · rw [hfm]
            simp only [rlCall, Option.toList, List.append_nil]
            refine h.rl.stays ⟨ex.out.trans (by rw [e1]), hg1, fun _ => ex.ready⟩ (ex.rl.trans (by rw [e1]))
          · rw [b1, a1, h.crs]; simp [clientRandoms]
          · rw [b2, a2, hsr]; rfl
          · cases hst with
            | init core hk hr hs hf =>
              exfalso
              have := i1.sr (by rw [a2]; simp [serverRandoms])
              rw [a1, h.crs] at this
              exact this rfl
            | random core cr hk hr hs hf =>
              refine .hello c2 cr hello w p0 p1 o [] none none hhd ex.ready .none ?_
                ⟨fun _ => (by rw [b4, a4, hf.1]; rfl), fun _ => (by rw [b5, a5, hf.2]; rfl)⟩
              rw [handshakes_append, hs]; rfl
            | hello => exact absurd rfl hn
  | clientFinishedVd hash =>
    simp only [Follower.step] at hx
    split at hx
    · cases hx
    · rename_i hn
      obtain ⟨r, h1, hx⟩ := Outcome.bind_eq_ok.mp hx
      cases hx
      have hcf : cfHashes ops = [] := by
        cases hst with
        | init core hk hr hs hf => exact hf.1
        | random core cr hk hr hs hf => exact hf.1
        | hello core cr hello w' p0 p1 o fin cf sf hh hr hfin hs hf =>
          cases cf with
          | none => exact hf.1 rfl
          | some _ => exact absurd rfl hn
      obtain ⟨q, hq, i2, g2, e2, k, cr', sr', v1, v2, v3, v4⟩ := Core.clientVd_ok h.core hcf h1
      obtain ⟨b1, b2, b3, b4, b5⟩ := set_append ops (.cfHash hash.toList) hq
      have eo : r.1.out = f.core.out := by rw [e2]
      have ek : r.1.ke = f.core.ke := by rw [e2]
      have er : r.1.ready = f.core.ready := by rw [e2]
      have el : r.1.rl = f.core.rl := by rw [e2]
      refine ⟨_, i2, ?_, by rw [show ({ f with core := r.1, cf := some r.2 } : Follower).core = r.1 from rfl, ek]; exact h.role,
        ?_, ?_, ?_, sizes_append h.sizes (sizes_one (by simp) hq)⟩
      · rw [hfm]
        simp only [rlCall, Option.toList, List.append_nil]
        exact h.rl.stays ⟨eo, g2, fun hr => er.trans hr⟩ el
      · rw [b1, h.crs]; simp [clientRandoms]
      · rw [b2, h.srs]; simp [serverRandoms]
      · cases hst with
        | init core hk hr hs hf =>
          exfalso
          rw [h.crs] at v2
          cases v2
        | random core cr hk hr hs hf =>
          exfalso
          rw [h.srs] at v3
          cases v3
        | hello core cr hello w' p0 p1 o fin cf sf hh hr hfin hs hf =>
          have ec : cr' = cr.toList := by rw [h.crs] at v2; cases v2; rfl
          have es : sr' = hello.random.toList := by rw [h.srs] at v3; cases v3; rfl
          have hh' := hh.mono (c' := r.1) [(.clientFinishedVd hash, w)] g2
          have ekk : k = (secretOf D .follower p0 p1 o).1 := by
            have := (outAt D.add n (·.1)).val.mono _ _ _ i2.le hh'.secret
            exact Option.some.inj (v1.symm.trans this)
          subst ec es ekk
          have hfin' : Fin D.sha (D.sha.masterSecret (secretOf D .follower p0 p1 o).1 cr.toList hello.random.toList)
              (fin ++ [.clientFinishedVd hash]) (some r.2) sf := by
            rw [v4]
            cases hfin with
            | none => exact .c hash
            | s hs' => exact .sc hash hs'
            | c => exact absurd rfl hn
            | cs => exact absurd rfl hn
            | sc => exact absurd rfl hn
          refine .hello r.1 cr hello w' p0 p1 o _ _ sf hh' (by rw [er]; exact hr) hfin' ?_
            ⟨fun he => (by cases he), fun he => (by rw [b5, hf.2 he]; rfl)⟩
          rw [handshakes_append, hs]; rfl
  | serverFinishedVd hash =>
    simp only [Follower.step] at hx
    split at hx
    · cases hx
    · rename_i hn
      obtain ⟨r, h1, hx⟩ := Outcome.bind_eq_ok.mp hx
      cases hx
      have hsf : sfHashes ops = [] := by
        cases hst with
        | init core hk hr hs hf => exact hf.2
        | random core cr hk hr hs hf => exact hf.2
        | hello core cr hello w' p0 p1 o fin cf sf hh hr hfin hs hf =>
          cases sf with
          | none => exact hf.2 rfl
          | some _ => exact absurd rfl hn
      obtain ⟨q, hq, i2, g2, e2, k, cr', sr', v1, v2, v3, v4⟩ := Core.serverVd_ok h.core hsf h1
      obtain ⟨b1, b2, b3, b4, b5⟩ := set_append ops (.sfHash hash.toList) hq
      have eo : r.1.out = f.core.out := by rw [e2]
      have ek : r.1.ke = f.core.ke := by rw [e2]
      have er : r.1.ready = f.core.ready := by rw [e2]
      have el : r.1.rl = f.core.rl := by rw [e2]
      refine ⟨_, i2, ?_, by rw [show ({ f with core := r.1, sf := some r.2 } : Follower).core = r.1 from rfl, ek]; exact h.role,
        ?_, ?_, ?_, sizes_append h.sizes (sizes_one (by simp) hq)⟩
      · rw [hfm]
        simp only [rlCall, Option.toList, List.append_nil]
        exact h.rl.stays ⟨eo, g2, fun hr => er.trans hr⟩ el
      · rw [b1, h.crs]; simp [clientRandoms]
      · rw [b2, h.srs]; simp [serverRandoms]
      · cases hst with
        | init core hk hr hs hf =>
          exfalso
          rw [h.crs] at v2
          cases v2
        | random core cr hk hr hs hf =>
          exfalso
          rw [h.srs] at v3
          cases v3
        | hello core cr hello w' p0 p1 o fin cf sf hh hr hfin hs hf =>
          have ec : cr' = cr.toList := by rw [h.crs] at v2; cases v2; rfl
          have es : sr' = hello.random.toList := by rw [h.srs] at v3; cases v3; rfl
          have hh' := hh.mono (c' := r.1) [(.serverFinishedVd hash, w)] g2
          have ekk : k = (secretOf D .follower p0 p1 o).1 := by
            have := (outAt D.add n (·.1)).val.mono _ _ _ i2.le hh'.secret
            exact Option.some.inj (v1.symm.trans this)
          subst ec es ekk
          have hfin' : Fin D.sha (D.sha.masterSecret (secretOf D .follower p0 p1 o).1 cr.toList hello.random.toList)
              (fin ++ [.serverFinishedVd hash]) cf (some r.2) := by
            rw [v4]
            cases hfin with
            | none => exact .s hash
            | c hc => exact .cs hc hash
            | s => exact absurd rfl hn
            | cs => exact absurd rfl hn
            | sc => exact absurd rfl hn
          refine .hello r.1 cr hello w' p0 p1 o _ cf _ hh' (by rw [er]; exact hr) hfin' ?_
            ⟨fun he => (by rw [b4, hf.1 he]; rfl), fun he => (by cases he)⟩
          rw [handshakes_append, hs]; rfl

end Tlsn.Mpc
