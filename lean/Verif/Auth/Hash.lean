import Verif.Auth.Verify
import Verif.Auth.Spec
import Verif.Proof.Props

/-! # Lemmas about hash commitments -/

namespace Tlsn

/-! ## The decrypted application data -/

theorem decryptRecord_length (aes : AesFn) (k i : Bytes) (r : Record) :
    (decryptRecord aes k i r).length = r.ciphertext.length := by simp [decryptRecord]

theorem decryptRecord_get (aes : AesFn) (k i : Bytes) (r : Record) (x : Nat) (hx : x < r.ciphertext.length) :
    ∃ ks ct, (ksBlock aes k i r.nonce (x / 16))[x % 16]? = some ks ∧ r.ciphertext[x]? = some ct ∧
      (decryptRecord aes k i r)[x]? = some (ct ^^^ ks) := by
  have h16 : x % 16 < (ksBlock aes k i r.nonce (x / 16)).length := by
    simp [ksBlock]; omega
  refine ⟨_, _, List.getElem?_eq_getElem h16, List.getElem?_eq_getElem hx, ?_⟩
  rw [decryptRecord, List.getElem?_mapIdx, List.getElem?_eq_getElem hx]
  simp [ksBlock]

theorem flat_decrypt (aes : AesFn) (k i : Bytes) (rs : List Record) (x : Nat) (v : Byte) :
    (rs.flatMap (decryptRecord aes k i))[x]? = some v ↔
      Decrypts aes k i rs (rs.flatMap (·.ciphertext)) x v := by
  induction rs generalizing x with
  | nil => simp [Decrypts, ksAt, recordParams]
  | cons r t ih =>
    have hk : ∀ y, ksAt aes k i (recordParams (r :: t)) y = if y < r.ciphertext.length then
        (ksBlock aes k i r.nonce (y / 16))[y % 16]? else ksAt aes k i (recordParams t) (y - r.ciphertext.length) :=
      fun y => rfl
    simp only [Decrypts, List.flatMap_cons, hk] at ih ⊢
    by_cases hx : x < r.ciphertext.length
    · rw [List.getElem?_append_left (by rw [decryptRecord_length]; exact hx),
        List.getElem?_append_left hx, if_pos hx]
      obtain ⟨ks, ct, h1, h2, h3⟩ := decryptRecord_get aes k i r x hx
      rw [h1, h2, h3]
      constructor
      · intro h
        simp at h; subst h
        refine ⟨ks, ct, rfl, rfl, ?_⟩
        rw [UInt8.xor_assoc]; simp
      · rintro ⟨a, b, ha, hb, hab⟩
        simp at ha hb; subst ha; subst hb; subst hab
        rw [UInt8.xor_assoc]; simp
    · rw [List.getElem?_append_right (by rw [decryptRecord_length]; omega),
        List.getElem?_append_right (by omega), if_neg hx, decryptRecord_length]
      exact ih _

theorem flat_decrypt_length (aes : AesFn) (k i : Bytes) (rs : List Record) :
    (rs.flatMap (decryptRecord aes k i)).length = (rs.flatMap (·.ciphertext)).length := by
  simp [List.length_flatMap, decryptRecord_length]

theorem appData_eq (aes : AesFn) (k i : Bytes) (rs : List Record) :
    appData aes k i rs = (appRecords rs).flatMap (decryptRecord aes k i) := rfl

theorem collect_eq (rs : List Record) : collectCiphertext rs = (appRecords rs).flatMap (·.ciphertext) := rfl

/-! ## References that represent data -/

/-- The references of the set `t` hold the bytes of `d`. -/
def Rep (vm : ZkVm) (refs : RangeMap) (t : RangeSet) (d : Bytes) : Prop :=
  ∃ a, refs = layout a t.ranges ∧ a + t.len ≤ vm.mem.length ∧
    ∀ x b, refs.addrAt x = some b → ∃ v, vm.mem[b]? = some v ∧ d[x]? = some v

theorem Rep.mono {vm vm' : ZkVm} (h : Grew vm vm') {refs : RangeMap} {t : RangeSet} {d : Bytes}
    (hr : Rep vm refs t d) : Rep vm' refs t d := by
  obtain ⟨a, h1, h2, h3⟩ := hr
  refine ⟨a, h1, ?_, ?_⟩
  · obtain ⟨m, hm⟩ := h; rw [hm, List.length_append]; omega
  · intro x b hx
    obtain ⟨v, e1, e2⟩ := h3 x b hx
    have hb : b < vm.mem.length := by
      rcases List.getElem?_eq_some_iff.1 e1 with ⟨h, _⟩; exact h
    exact ⟨v, by rw [h.getElem? hb, e1], e2⟩

theorem Rep.read1 {vm : ZkVm} {refs : RangeMap} {t : RangeSet} {d : Bytes} (h : Rep vm refs t d) {idx : RangeSet}
    (hi : idx ⊆ t) {r : Rng} (hr : r ∈ idx.ranges) :
    ∃ v b, refs.get r = some v ∧ v.addr + v.len ≤ vm.mem.length ∧ slice d r.1 r.2 = some b ∧ vm.read v = b := by
  obtain ⟨a, rfl, h2, h3⟩ := h
  have hne := idx.canon.nonempty r hr
  obtain ⟨v, hv⟩ := layout_get (a := a) hi hr
  obtain ⟨l1, l2⟩ := RangeMap.get_addrAt (layout_good a t.canon) hv
  have hcell : ∀ k < v.len, ∃ y, vm.mem[v.addr + k]? = some y ∧ d[r.1 + k]? = some y :=
    fun k hk => h3 _ _ (l2 k hk)
  have hend : v.addr + v.len ≤ vm.mem.length := by
    obtain ⟨y, hy, _⟩ := hcell (v.len - 1) (by omega)
    rcases List.getElem?_eq_some_iff.1 hy with ⟨h, _⟩; omega
  have hdend : r.2 ≤ d.length := by
    obtain ⟨y, _, hy⟩ := hcell (v.len - 1) (by omega)
    rcases List.getElem?_eq_some_iff.1 hy with ⟨h, _⟩; omega
  refine ⟨v, _, hv, hend, slice_isSome (by omega) hdend, ?_⟩
  have h2 : r.2 = r.1 + v.len := by omega
  rw [h2, ZkVm.read, take_drop_eq_iff _ _ _ _ _ hend (by omega)]
  intro j hj
  obtain ⟨y, e1, e2⟩ := hcell j hj
  rw [e1, e2]

theorem Rep.reads {vm : ZkVm} {refs : RangeMap} {t : RangeSet} {d : Bytes} (h : Rep vm refs t d) {idx : RangeSet}
    (hi : idx ⊆ t) (rs : List Rng) (hrs : ∀ r ∈ rs, r ∈ idx.ranges) :
    ∃ vs b, rs.mapM refs.get = some vs ∧ InMem vm vs ∧ gather d rs = some b ∧ readAll vm vs = b := by
  induction rs with
  | nil => exact ⟨[], [], rfl, fun v hv => absurd hv List.not_mem_nil, rfl, rfl⟩
  | cons r t ih =>
    obtain ⟨vs, b, h1, h2, h3, h4⟩ := ih fun q hq => hrs q (by simp [hq])
    obtain ⟨v, c, g1, g2, g3, g4⟩ := h.read1 hi (hrs r (by simp))
    refine ⟨v :: vs, c ++ b, by simp [g1, h1], ?_, ?_, ?_⟩
    · intro w hw
      rcases List.mem_cons.1 hw with rfl | hw
      · exact g2
      · exact h2 w hw
    · simp [gather, g3, h3]
    · simp [readAll, g4] at h4 ⊢; exact h4

/-! ## One commitment -/

/-- The blinder of the commitment: the prover's own, or what the other party put there. -/
theorem allocBlinder_spec (vm : ZkVm) (own : Option Blinder) :
    ∃ vm' v b, allocBlinder vm own = .ok (vm', v) ∧ Grew vm vm' ∧ Holds vm' v b ∧ b.length = 16 ∧
      vm'.fill = vm.fill ∧ v = ⟨vm.mem.length, 16⟩ ∧ vm'.mem.length = vm.mem.length + 16 ∧
      (∀ o, own = some o → b = o.toList) ∧ (own = none → b = (List.range' vm.mem.length 16).map vm.fill) := by
  cases own with
  | none =>
    refine ⟨_, _, (List.range' vm.mem.length 16).map vm.fill, rfl, ⟨_, rfl⟩, ?_, by simp, rfl, rfl,
      by simp [ZkVm.alloc, ZkVm.mark], by simp, fun _ => rfl⟩
    exact read_fresh (m := vm.mem) (b := []) (by simp [ZkVm.alloc, ZkVm.mark]) rfl (by simp [ZkVm.alloc])
  | some o =>
    have hw : writeAt (vm.mem ++ (List.range' vm.mem.length 16).map vm.fill) vm.mem.length o.toList =
        some (vm.mem ++ o.toList) := by
      unfold writeAt
      rw [if_pos (by simp)]
      simp
    refine ⟨{ ((vm.alloc 16).1.mark (vm.alloc 16).2 .priv) with mem := vm.mem ++ o.toList }, ⟨vm.mem.length, 16⟩,
      o.toList, ?_, ⟨_, rfl⟩, ?_, by simp, rfl, rfl, by simp, ?_, by simp⟩
    · have h16 : o.toList.length = 16 := by simp
      simp only [allocBlinder, ZkVm.assign, ZkVm.mark, ZkVm.alloc, h16, ne_eq, not_true, if_false, hw]
      rfl
    · exact read_fresh (m := vm.mem) (b := []) (by simp) rfl (by simp)
    · intro o' ho; simp at ho; rw [ho]

theorem hashOne_spec (hc : HashCircuits) {vm : ZkVm} {refs : RangeMap} {t : RangeSet} {d : Bytes}
    (h : Rep vm refs t d) {idx : RangeSet} (hi : idx ⊆ t) {alg : HashAlgId} {f : Bytes → Vector Byte 32}
    (hf : hc alg = some f) {bv : VmVec} {b : Bytes} (hb : Holds vm bv b) :
    ∃ vm' v msg, hashOne hc vm refs idx alg bv = .ok (vm', v) ∧ Grew vm vm' ∧ BytesAt d idx msg ∧
      Holds vm' v (f (msg ++ b)).toList ∧ vm'.fill = vm.fill := by
  obtain ⟨vs, msg, h1, h2, h3, h4⟩ := h.reads hi idx.ranges fun r hr => hr
  refine ⟨(vm.call (.hash alg (vs ++ [bv])) (f ((vs ++ [bv]).flatMap vm.read)).toList).1,
    (vm.call (.hash alg (vs ++ [bv])) (f ((vs ++ [bv]).flatMap vm.read)).toList).2, msg,
    by simp only [hashOne, hf, h1], ⟨_, rfl⟩, gather_bytesAt.1 h3, ?_, rfl⟩
  have hread : (vs ++ [bv]).flatMap vm.read = msg ++ b := by
    rw [List.flatMap_append]
    simp only [readAll] at h4
    rw [h4]; simp [hb.2]
  rw [hread]
  exact read_fresh (m := vm.mem) (b := []) (by simp [ZkVm.call]) rfl (by simp [ZkVm.call])

/-! ## All commitments -/

/-- Every requested set is inside the allocated sets, and every algorithm is supported. -/
def HashReqOk (hc : HashCircuits) (ts tr : RangeSet) (l : List (Direction × RangeSet × HashAlgId)) : Prop :=
  ∀ q ∈ l, (hc q.2.2).isSome ∧ match q.1 with
    | .sent => q.2.1 ⊆ ts
    | .received => q.2.1 ⊆ tr

theorem hashCommitInner_spec (hc : HashCircuits) (own : Nat → Option Blinder) {ts tr : RangeSet}
    {data : Transcript} {refs : TranscriptRefs} (l : List (Direction × RangeSet × HashAlgId)) (n : Nat) (vm : ZkVm)
    (hs : Rep vm refs.sent ts data.sent) (hr : Rep vm refs.recv tr data.received) (hl : HashReqOk hc ts tr l) :
    ∃ vm' outs, hashCommitInner hc own refs n l vm = .ok (vm', outs) ∧ Grew vm vm' ∧
      Pairwise2 (fun q o => ∃ f msg b, hc q.2.2 = some f ∧ BytesAt (data.data q.1) q.2.1 msg ∧ b.length = 16 ∧
        o.direction = q.1 ∧ o.idx = q.2.1 ∧ o.alg = q.2.2 ∧ Holds vm' o.hash (f (msg ++ b)).toList) l outs ∧
      ∀ j q o, l[j]? = some q → outs[j]? = some o → ∃ f msg b, hc q.2.2 = some f ∧
        BytesAt (data.data q.1) q.2.1 msg ∧ Holds vm' o.hash (f (msg ++ b)).toList ∧
        (∀ w, own (n + j) = some w → b = w.toList) ∧
        (own (n + j) = none → b = (List.range' o.blinder.addr 16).map vm.fill) ∧
        o.blinder.len = 16 ∧ Holds vm' o.blinder b := by
  induction l generalizing n vm with
  | nil =>
    refine ⟨vm, [], rfl, Grew.refl vm, ⟨rfl, by simp⟩, by simp⟩
  | cons q rest ih =>
    obtain ⟨d, idx, alg⟩ := q
    obtain ⟨hq1, hq2⟩ := hl _ (by simp : (d, idx, alg) ∈ (d, idx, alg) :: rest)
    obtain ⟨f, hf⟩ := Option.isSome_iff_exists.1 hq1
    obtain ⟨vm1, bv, b, e1, g1, hb, hb16, hfill1, hbv, hlen1, how, hno⟩ := allocBlinder_spec vm (own n)
    have hone : ∃ vm2 v msg, hashOne hc vm1 (refs.of d) idx alg bv = .ok (vm2, v) ∧ Grew vm1 vm2 ∧
        BytesAt (data.data d) idx msg ∧ Holds vm2 v (f (msg ++ b)).toList ∧ vm2.fill = vm1.fill := by
      cases d with
      | sent => exact hashOne_spec hc (hs.mono g1) hq2 hf hb
      | received => exact hashOne_spec hc (hr.mono g1) hq2 hf hb
    obtain ⟨vm2, v, msg, e2, g2, hmsg, hv, hfill2⟩ := hone
    obtain ⟨vm3, outs, e3, g3, ⟨p1, p2⟩, p3⟩ := ih (n + 1) vm2 (hs.mono (g1.trans g2)) (hr.mono (g1.trans g2))
      fun q hq => hl q (by simp [hq])
    refine ⟨vm3, ⟨d, idx, alg, v, bv⟩ :: outs, ?_, (g1.trans g2).trans g3, ⟨by simp [p1], ?_⟩, ?_⟩
    · simp only [hashCommitInner, e1, Outcome.bind_ok, e2, e3, Outcome.pure_eq]
    · intro j q o hj ho
      cases j with
      | zero =>
        simp at hj ho; subst hj; subst ho
        exact ⟨f, msg, b, hf, hmsg, hb16, rfl, rfl, rfl, hv.mono g3⟩
      | succ j =>
        simp at hj ho
        exact p2 j q o hj ho
    · intro j q o hj ho
      cases j with
      | zero =>
        simp at hj ho; subst hj; subst ho
        refine ⟨f, msg, b, hf, hmsg, hv.mono g3, how, ?_, by rw [hbv], hb.mono (g2.trans g3)⟩
        intro h; rw [hno h, hbv]
      | succ j =>
        simp at hj ho
        obtain ⟨f', msg', b', t1, t2, t3, t4, t5, t6⟩ := p3 j q o hj ho
        refine ⟨f', msg', b', t1, t2, t3, ?_, ?_, t6⟩
        · intro w hw; exact t4 w (by rw [show n + 1 + j = n + (j + 1) by omega]; exact hw)
        · intro hw
          rw [t5 (by rw [show n + 1 + j = n + (j + 1) by omega]; exact hw), hfill2, hfill1]

/-- An unsupported algorithm anywhere in the request is an error (the sets being allocated). -/
theorem hashCommitInner_unsupported (hc : HashCircuits) (own : Nat → Option Blinder) {ts tr : RangeSet}
    {data : Transcript} {refs : TranscriptRefs} (l : List (Direction × RangeSet × HashAlgId)) (n : Nat) (vm : ZkVm)
    (hs : Rep vm refs.sent ts data.sent) (hr : Rep vm refs.recv tr data.received)
    (hl : ∀ q ∈ l, match q.1 with
      | .sent => q.2.1 ⊆ ts
      | .received => q.2.1 ⊆ tr)
    (hu : ∃ q ∈ l, hc q.2.2 = none) :
    hashCommitInner hc own refs n l vm = .err .unsupportedAlg := by
  induction l generalizing n vm with
  | nil => simp at hu
  | cons q rest ih =>
    obtain ⟨d, idx, alg⟩ := q
    have hq2 := hl _ (by simp : (d, idx, alg) ∈ (d, idx, alg) :: rest)
    obtain ⟨vm1, bv, b, e1, g1, hb, _⟩ := allocBlinder_spec vm (own n)
    simp only [hashCommitInner, e1, Outcome.bind_ok]
    cases hf : hc alg with
    | none => simp [hashOne, hf]
    | some f =>
      have hone : ∃ vm2 v msg, hashOne hc vm1 (refs.of d) idx alg bv = .ok (vm2, v) ∧ Grew vm1 vm2 ∧
          BytesAt (data.data d) idx msg ∧ Holds vm2 v (f (msg ++ b)).toList ∧ vm2.fill = vm1.fill := by
        cases d with
        | sent => exact hashOne_spec hc (hs.mono g1) hq2 hf hb
        | received => exact hashOne_spec hc (hr.mono g1) hq2 hf hb
      obtain ⟨vm2, v, msg, e2, g2, _⟩ := hone
      have := ih (n + 1) vm2 (hs.mono (g1.trans g2)) (hr.mono (g1.trans g2)) (fun q hq => hl q (by simp [hq])) (by
        obtain ⟨q, hq, hn⟩ := hu
        rcases List.mem_cons.1 hq with rfl | hq
        · rw [hf] at hn; simp at hn
        · exact ⟨q, hq, hn⟩)
      rw [e2, Outcome.bind_ok, this]
      rfl

end Tlsn
