import Verif.Auth.Sync

/-! # The prover's side of plaintext authentication -/

namespace Tlsn

theorem assignAll_fill (p : Bytes) (m : RangeMap) (vm vm' : ZkVm) (h : assignAll p m vm = .ok vm') :
    vm'.fill = vm.fill := by
  induction m generalizing vm with
  | nil => simp [assignAll] at h; rw [h]
  | cons e t ih =>
    obtain ⟨i, v⟩ := e
    simp only [assignAll] at h
    split at h
    · cases h
    · rename_i b _
      cases ha : vm.assignE v b with
      | err x => rw [ha] at h; cases h
      | panic => rw [ha] at h; cases h
      | ok vm1 =>
        rw [ha, Outcome.bind_ok] at h
        rw [ih vm1 h]
        simp only [ZkVm.assignE, ZkVm.assign] at ha
        split at ha
        · cases ha
        · rename_i w hw
          simp only [Outcome.ok.injEq] at ha
          subst ha
          split at hw
          · cases hw
          · simp only [Option.map_eq_some_iff] at hw
            obtain ⟨_, _, rfl⟩ := hw
            rfl

theorem read_cells {a b : ZkVm} {v : VmVec}
    (h : ∀ k < v.len, a.mem[v.addr + k]? = b.mem[v.addr + k]?) : a.read v = b.read v := by
  simp only [ZkVm.read]
  apply List.ext_getElem?
  intro j
  by_cases hj : j < v.len
  · rw [List.getElem?_take_of_lt hj, List.getElem?_take_of_lt hj, List.getElem?_drop, List.getElem?_drop, h j hj]
  · rw [List.getElem?_eq_none (by simp; omega), List.getElem?_eq_none (by simp; omega)]

/-- The ciphertext cells when the plaintext cells are the decryption. -/
theorem cipher_cells (aes : AesFn) (k i : Bytes) (records : List Record) {vm : ZkVm} (a : Nat) (t : RangeSet)
    (hl : a + t.len ≤ vm.mem.length)
    (hx : ∀ x b, (layout a t.ranges).addrAt x = some b →
      vm.mem[b]? = (records.flatMap (decryptRecord aes k i))[x]?) :
    xorBytes ((vm.mem.drop a).take t.len)
      ((positions t.ranges).map fun x => (ksAt aes k i (recordParams records) x).getD 0) =
      (positions t.ranges).map fun x => ((records.flatMap (·.ciphertext))[x]?).getD 0 := by
  have hpl : (positions t.ranges).length = t.len := by rw [positions_length, totalLen_ranges]
  apply List.ext_getElem
  · simp [xorBytes, hpl]; omega
  · intro j h1 h2
    have hj : j < t.len := by simpa [hpl] using h2
    have hjx : (positions t.ranges)[j]? = some ((positions t.ranges)[j]'(by omega)) := List.getElem?_eq_getElem _
    have hcell := hx _ _ (addrAt_layout a t.canon _ _ hjx)
    have hlt : a + j < vm.mem.length := by omega
    rw [List.getElem?_eq_getElem hlt] at hcell
    obtain ⟨ks, ct, d1, d2, d3⟩ := (flat_decrypt aes k i records _ _).1 hcell.symm
    simp only [xorBytes, List.getElem_zipWith, List.getElem_map, List.getElem_take, List.getElem_drop]
    rw [d1, d2]
    simpa using d3

/-- `prove_plaintext` succeeds on ranges inside of the plaintext, and the references hold the plaintext. -/
theorem provePlaintext_spec (aes : AesFn) (e : Bool) {vm : ZkVm} {key iv : VmVec} {k i p c : Bytes}
    {records : List Record} {reveal : RangeSet} (commit : RangeSet)
    (h : AuthPre vm key iv k i p c records reveal) (hc : commit.endD ≤ p.length) :
    ∃ vm', provePlaintext aes e vm key iv p records reveal commit =
        .ok (vm', layout vm.mem.length (allocRanges e reveal commit p.length).ranges) ∧ Grew vm vm' ∧
      vm.mem.length + (allocRanges e reveal commit p.length).len ≤ vm'.mem.length ∧
      ∀ x a, (layout vm.mem.length (allocRanges e reveal commit p.length).ranges).addrAt x = some a →
        vm'.mem[a]? = p[x]? := by
  have hlen := h.len
  have hcl : ((recordParams records).map (·.len)).sum = c.length := by rw [params_sum, h.cipher]
  have hnonce := params_nonce h.nonces
  simp only [provePlaintext, allocPlaintext_eq, Outcome.bind_ok]
  generalize hT : allocRanges e reveal commit p.length = T
  obtain ⟨m, hm1, hm2⟩ := alloc_mem vm T
  generalize hvm1 : (if T.len = 0 then vm else (vm.alloc T.len).1) = vm1 at hm1
  have hg1 : Grew vm vm1 := ⟨m, hm1⟩
  have hl1 : vm.mem.length + T.len ≤ vm1.mem.length := by rw [hm1, List.length_append]; omega
  have hTend : T.endD ≤ p.length := RangeSet.endD_le_iff.2 fun x hx => by
    rw [← hT] at hx
    rcases allocRanges_sub _ _ _ _ x hx with hx | hx
    · have := RangeSet.mem_lt_endD hx; have := h.reveal; omega
    · have := RangeSet.mem_lt_endD hx; omega
  by_cases hall : isRevealAll e reveal p.length = true
  · rw [if_pos hall]
    obtain ⟨vm2, g1, g2, g3, g4, g5, g6⟩ := assign_index (vm0 := vm) (t := T)
      (vm := markAll ((vm1.decode key).1.decode iv).1 .pub (layout vm.mem.length T.ranges))
      (pub := T) p hTend (layout_self _ _)
      (by obtain ⟨m, hm⟩ := hg1; exact ⟨m, by rw [markAll_mem]; exact hm⟩) (by rw [markAll_mem]; exact hl1)
    refine ⟨vm2, by rw [g1]; rfl, g5, ?_, ?_⟩
    · rw [g2, markAll_mem]; exact hl1
    · intro x a ha
      rw [g6 x a ha, if_pos (addrAt_layout_inv _ _ ha)]
  · rw [if_neg hall]
    have hTc : T = commit.union reveal := by rw [← hT]; simp [allocRanges, hall]
    have hpriv : commit.diff reveal ⊆ T := fun x hx => by
      rw [hTc]; exact RangeSet.mem_union.2 (.inl (RangeSet.mem_diff.1 hx).1)
    have hpub : reveal ⊆ T := fun x hx => by rw [hTc]; exact RangeSet.mem_union.2 (.inr hx)
    obtain ⟨mp, hmp, _⟩ := indexE_ok (a := vm.mem.length) hpriv
    obtain ⟨mq, hmq, _⟩ := indexE_ok (a := vm.mem.length) hpub
    rw [hmp, hmq]
    simp only [Outcome.bind_ok]
    obtain ⟨vm2, g1, g2, g3, g4, g5, g6⟩ := assign_index (vm0 := vm) (t := T)
      (vm := markAll (markAll vm1 .priv mp) .pub mq) (pub := T) p hTend (layout_self _ _)
      (by obtain ⟨m, hm⟩ := hg1; exact ⟨m, by simpa using hm⟩) (by simpa using hl1)
    rw [g1]
    simp only [Outcome.bind_ok]
    have hl2 : vm.mem.length + T.len ≤ vm2.mem.length := by rw [g2]; simpa using hl1
    have hct := allocCiphertext_spec aes (h.key.mono g5) (h.iv.mono g5) vm.mem.length T hl2 (recordParams records)
    revert hct
    cases hact : allocCiphertext aes vm2 key iv (layout vm.mem.length T.ranges) (recordParams records) with
    | panic => exact fun h => h.elim
    | err er =>
      simp only
      rintro (⟨_, r, hr, hr8⟩ | ⟨_, x, hx, hx2⟩)
      · exact absurd (hnonce r hr) hr8
      · have := RangeSet.mem_lt_endD hx
        omega
    | ok res =>
      obtain ⟨vm3, ct⟩ := res
      simp only
      rintro ⟨c1, _, _⟩
      refine ⟨_, rfl, ?_, ?_, ?_⟩
      · exact g5.trans (by obtain ⟨m, hm⟩ := c1; exact ⟨m, by rw [decodeAll_mem, hm]⟩)
      · rw [decodeAll_mem]; obtain ⟨m, hm⟩ := c1; rw [hm, List.length_append]; omega
      · intro x a ha
        have hlt : a < vm2.mem.length := by
          obtain ⟨j, _, h1, h2⟩ := addrAt_layout_mem vm.mem.length T (addrAt_layout_inv _ _ ha)
          rw [ha] at h2; simp at h2
          rw [totalLen_ranges] at h1
          omega
        rw [decodeAll_mem, c1.getElem? hlt, g6 x a ha, if_pos (addrAt_layout_inv _ _ ha)]

theorem alloc_sync {F : Nat → Byte} {p v : ZkVm} (h : Sync F p v) (t : RangeSet) :
    Sync F (if t.len = 0 then p else (p.alloc t.len).1) (if t.len = 0 then v else (v.alloc t.len).1) := by
  split
  · exact h
  · refine ⟨(h.step.alloc _).1, h.agree.grow ⟨_, rfl⟩ ⟨_, rfl⟩ h.step.mem (fun m hm _ => .inl hm) fun x hx => .inl ?_⟩
    simpa [ZkVm.alloc] using hx

/-- The prover and the verifier of one direction, with matching inputs: both succeed, in step and in
agreement, and the proof is accepted. -/
theorem plaintext_step (aes : AesFn) (e : Bool) {F : Nat → Byte} {vp vv : ZkVm} {key iv : VmVec} {kp ip kv iv' : Bytes}
    {p q c : Bytes} {records : List Record} {reveal : RangeSet} (commit : RangeSet) (hs : Sync F vp vv)
    (hp : AuthPre vp key iv kp ip p c records reveal) (hv : AuthPre vv key iv kv iv' q c records reveal)
    (hc : commit.endD ≤ p.length) (hagree : ∀ x ∈ reveal, p[x]? = q[x]?)
    (hkeys : isRevealAll e reveal p.length = true → kp = kv ∧ ip = iv')
    (hdp : ∀ x, x ∈ reveal ∨ x ∈ commit → p[x]? = (records.flatMap (decryptRecord aes kp ip))[x]?)
    (hdq : ∀ x ∈ reveal, q[x]? = (records.flatMap (decryptRecord aes kv iv'))[x]?)
    (hF : ∀ x ∈ commit, x ∉ reveal → ∀ a,
      (layout vp.mem.length (allocRanges e reveal commit p.length).ranges).addrAt x = some a →
        (records.flatMap (decryptRecord aes kv iv'))[x]? = some (F a)) :
    ∃ vp' vv' refs proof, provePlaintext aes e vp key iv p records reveal commit = .ok (vp', refs) ∧
      verifyPlaintext aes e vv key iv q c records reveal commit = .ok (vv', refs, proof) ∧
      proof.verify aes = .ok () ∧ Sync F vp' vv' ∧ Grew vp vp' ∧ Grew vv vv' ∧
      refs = layout vp.mem.length (allocRanges e reveal commit p.length).ranges ∧
      (∀ x a, refs.addrAt x = some a → vp'.mem[a]? = p[x]?) ∧
      Rep vv' refs (allocRanges e reveal commit p.length) (records.flatMap (decryptRecord aes kv iv')) := by
  have hmem := hs.step.mem
  have hpq : q.length = p.length := by rw [hp.len, hv.len]
  obtain ⟨vp', hpe, hgp, hlp, hcells⟩ := provePlaintext_spec aes e commit hp hc
  obtain ⟨vv', refs, proof, hve, hgv, hrefs, hlv, hver⟩ := verifyPlaintext_data aes e commit hv (by omega)
  rw [hpq] at hrefs hlv hver
  rw [← hmem] at hrefs
  rw [hs.step.fill] at hver
  have hacc : proof.verify aes = .ok () ∧ Rep vv' refs (allocRanges e reveal commit p.length)
      (records.flatMap (decryptRecord aes kv iv')) := by
    rcases hver with ⟨v1, _, v3, _⟩ | ⟨_, ⟨x, hx, hne⟩ | ⟨x, hx, hxr, a, ha, hne⟩⟩
    · exact ⟨v1, v3⟩
    · exact absurd (hdq x hx) hne
    · rw [hrefs] at ha
      exact absurd (hF x hx hxr a ha) hne
  refine ⟨vp', vv', refs, proof, by rw [hpe, hrefs], hve, hacc.1, ?_, hgp, hgv, hrefs, ?_, hacc.2⟩
  swap
  · rw [hrefs]; exact hcells
  -- the two runs, side by side
  have hrep := hacc.2
  clear hver hacc hlp hlv
  simp only [provePlaintext, allocPlaintext_eq, Outcome.bind_ok] at hpe
  simp only [verifyPlaintext, allocPlaintext_eq, Outcome.bind_ok, hpq, ← hmem] at hve
  rw [hrefs] at hve hrep
  clear hrefs refs
  generalize hT : allocRanges e reveal commit p.length = T at *
  have hTend : T.endD ≤ p.length := RangeSet.endD_le_iff.2 fun x hx => by
    rw [← hT] at hx
    rcases allocRanges_sub _ _ _ _ x hx with hx | hx
    · have := RangeSet.mem_lt_endD hx; have := hp.reveal; omega
    · have := RangeSet.mem_lt_endD hx; omega
  have hs1 := alloc_sync hs T
  obtain ⟨m1, hm1, hm2⟩ := alloc_mem vp T
  obtain ⟨n1, hn1, hn2⟩ := alloc_mem vv T
  have hmarks1 : (if T.len = 0 then vp else (vp.alloc T.len).1).marks = vp.marks := by split <;> rfl
  have hopsd1 : ∀ x, VmOp.decode x ∈ (if T.len = 0 then vp else (vp.alloc T.len).1).ops → VmOp.decode x ∈ vp.ops := by
    intro x; split
    · exact id
    · simp [ZkVm.alloc]
  generalize (if T.len = 0 then vp else (vp.alloc T.len).1) = vp1 at *
  generalize (if T.len = 0 then vv else (vv.alloc T.len).1) = vv1 at *
  have hgp1 : Grew vp vp1 := ⟨m1, hm1⟩
  have hgv1 : Grew vv vv1 := ⟨n1, hn1⟩
  have hlp1 : vp.mem.length + T.len ≤ vp1.mem.length := by rw [hm1, List.length_append]; omega
  have hlv1 : vv.mem.length + T.len ≤ vv1.mem.length := by rw [hn1, List.length_append]; omega
  have hspan : ∀ x a, (layout vp.mem.length T.ranges).addrAt x = some a → a < vp.mem.length + T.len := by
    intro x a h
    obtain ⟨j, _, h1, h2⟩ := addrAt_layout_mem vp.mem.length T (addrAt_layout_inv _ _ h)
    rw [h] at h2; simp at h2
    rw [totalLen_ranges] at h1
    omega
  by_cases hall : isRevealAll e reveal p.length = true
  · rw [if_pos hall] at hpe hve
    obtain ⟨rfl, rfl⟩ := hkeys hall
    have hrx := isRevealAll_mem hall
    have hTx : ∀ x ∈ T, x ∈ reveal := fun x hx => (hrx x).2 (by
      have := RangeSet.mem_lt_endD hx; omega)
    obtain ⟨vp2, g1, g2, g3, g4, g5, g6⟩ := assign_index (vm0 := vp) (t := T)
      (vm := markAll ((vp1.decode key).1.decode iv).1 .pub (layout vp.mem.length T.ranges))
      (pub := T) p hTend (layout_self _ _)
      (by obtain ⟨m, hm⟩ := hgp1; exact ⟨m, by rw [markAll_mem]; exact hm⟩) (by rw [markAll_mem]; exact hlp1)
    obtain ⟨vv2, k1, k2, k3, k4, k5, k6⟩ := assign_index (vm0 := vv) (t := T)
      (vm := markAll ((vv1.decode key).1.decode iv).1 .pub (layout vp.mem.length T.ranges))
      (pub := T) q (by omega) (by rw [← hmem]; exact layout_self _ _)
      (by obtain ⟨m, hm⟩ := hgv1; exact ⟨m, by rw [markAll_mem]; exact hm⟩) (by rw [markAll_mem]; exact hlv1)
    rw [g1] at hpe
    rw [k1] at hve
    simp only [Outcome.bind_ok, Outcome.pure_eq, Outcome.ok.injEq, Prod.mk.injEq] at hpe hve
    obtain ⟨rfl, _⟩ := hpe
    obtain ⟨rfl, _⟩ := hve
    have hst : InStep F vp2 vv2 := ((hs1.step.decode key).decode iv |>.markAll .pub (layout vp.mem.length T.ranges)).of_same
      g2 g3 g4 k2 k3 k4 (assignAll_fill _ _ _ _ k1)
    refine ⟨hst, hs.agree.grow g5 k5 hmem ?_ ?_⟩
    · intro mk hmk _
      rw [g4] at hmk
      simp only [markAll_marks, ZkVm.decode, hmarks1, List.mem_append, List.mem_map] at hmk
      rcases hmk with hmk | ⟨en, hen, rfl⟩
      · exact .inl hmk
      · right
        obtain ⟨r, hr, e1, e2⟩ := (layout_self vp.mem.length T).1 en hen
        obtain ⟨l1, l2⟩ := RangeMap.get_addrAt (layout_good _ T.canon) e2
        have hne := T.canon.nonempty r hr
        have hb := hspan _ _ (l2 (en.2.len - 1) (by omega))
        have hin : en.2.addr + en.2.len ≤ vp2.mem.length := by
          rw [g2, markAll_mem]; simp only [ZkVm.decode]; omega
        have hin' : en.2.addr + en.2.len ≤ vv2.mem.length := by rw [← hst.mem]; exact hin
        refine ⟨vp2.read en.2, ⟨hin, rfl⟩, hin', ?_⟩
        refine (read_cells (v := en.2) fun j hj => ?_).symm
        have hx := addrAt_layout_inv _ _ (l2 j hj)
        rw [g6 _ _ (l2 j hj), k6 _ _ (by rw [← hmem]; exact l2 j hj), if_pos hx, if_pos hx]
        exact hagree _ (hTx _ hx)
    · intro x hx
      rw [g3] at hx
      simp only [markAll_ops, ZkVm.decode, List.mem_append, List.mem_singleton, VmOp.decode.injEq] at hx
      rcases hx with (hx | rfl) | rfl
      · exact .inl (hopsd1 x hx)
      · exact .inr ⟨_, hp.key.mono g5, hv.key.mono k5⟩
      · exact .inr ⟨_, hp.iv.mono g5, hv.iv.mono k5⟩
  · rw [if_neg hall] at hpe hve
    have hTc : T = commit.union reveal := by rw [← hT]; simp [allocRanges, hall]
    have hTmem : ∀ x, x ∈ T ↔ x ∈ reveal ∨ x ∈ commit := by
      intro x; rw [hTc, RangeSet.mem_union]; exact or_comm
    have hpriv : commit.diff reveal ⊆ T := fun x hx => (hTmem x).2 (.inr (RangeSet.mem_diff.1 hx).1)
    have hpub : reveal ⊆ T := fun x hx => (hTmem x).2 (.inl hx)
    obtain ⟨mp, hmp, _⟩ := indexE_ok (a := vp.mem.length) hpriv
    obtain ⟨mq, hmq, hmq'⟩ := indexE_ok (a := vp.mem.length) hpub
    rw [hmp, hmq] at hpe hve
    simp only [Outcome.bind_ok] at hpe hve
    have hmi := RangeMap.mem_index (layout_good vp.mem.length T.canon) reveal.canon.nonempty hmq'
    obtain ⟨vp2, g1, g2, g3, g4, g5, g6⟩ := assign_index (vm0 := vp) (t := T)
      (vm := markAll (markAll vp1 .priv mp) .pub mq) (pub := T) p hTend (layout_self _ _)
      (by obtain ⟨m, hm⟩ := hgp1; exact ⟨m, by simpa using hm⟩) (by simpa using hlp1)
    obtain ⟨vv2, k1, k2, k3, k4, k5, k6⟩ := assign_index (vm0 := vv) (t := T)
      (vm := markAll (markAll vv1 .blind mp) .pub mq) (pub := reveal) q hv.reveal (by rw [← hmem]; exact hmi)
      (by obtain ⟨m, hm⟩ := hgv1; exact ⟨m, by simpa using hm⟩) (by simpa using hlv1)
    rw [g1] at hpe
    rw [k1] at hve
    simp only [Outcome.bind_ok] at hpe hve
    have hst : InStep F vp2 vv2 := ((hs1.step.markAll .priv mp).markAll .pub mq).of_same
      g2 g3 g4 k2 k3 k4 (assignAll_fill _ _ _ _ k1)
    have hl2 : vp.mem.length + T.len ≤ vp2.mem.length := by rw [g2]; simpa using hlp1
    have hl2' : vp.mem.length + T.len ≤ vv2.mem.length := by rw [← hst.mem]; exact hl2
    have hs2 : Sync F vp2 vv2 := by
      refine ⟨hst, hs.agree.grow g5 k5 hmem ?_ ?_⟩
      · intro mk hmk hmpub
        rw [g4] at hmk
        simp only [markAll_marks, hmarks1, List.mem_append, List.mem_map] at hmk
        rcases hmk with (hmk | ⟨en, hen, rfl⟩) | ⟨en, hen, rfl⟩
        · exact .inl hmk
        · cases hmpub
        · right
          obtain ⟨r, hr, e1, e2⟩ := hmi.1 en hen
          obtain ⟨l1, l2⟩ := RangeMap.get_addrAt (layout_good _ T.canon) e2
          have hne := reveal.canon.nonempty r hr
          have hb := hspan _ _ (l2 (en.2.len - 1) (by omega))
          have hin : en.2.addr + en.2.len ≤ vp2.mem.length := by omega
          have hin' : en.2.addr + en.2.len ≤ vv2.mem.length := by omega
          refine ⟨vp2.read en.2, ⟨hin, rfl⟩, hin', ?_⟩
          refine (read_cells (v := en.2) fun j hj => ?_).symm
          have hx := addrAt_layout_inv _ _ (l2 j hj)
          have hxr : r.1 + j ∈ reveal := ⟨r, hr, by omega, by omega⟩
          rw [g6 _ _ (l2 j hj), k6 _ _ (by rw [← hmem]; exact l2 j hj), if_pos hx, if_pos hxr]
          exact hagree _ hxr
      · intro x hx
        rw [g3] at hx
        simp only [markAll_ops] at hx
        exact .inl (hopsd1 x hx)
    have hcp := allocCiphertext_spec aes (hp.key.mono g5) (hp.iv.mono g5) vp.mem.length T hl2 (recordParams records)
    have hcv := allocCiphertext_spec aes (hv.key.mono k5) (hv.iv.mono k5) vp.mem.length T hl2' (recordParams records)
    have hstep := allocCiphertext_step aes hs2 key iv (layout vp.mem.length T.ranges) (recordParams records)
    generalize allocCiphertext aes vp2 key iv (layout vp.mem.length T.ranges) (recordParams records) = xp at *
    generalize allocCiphertext aes vv2 key iv (layout vp.mem.length T.ranges) (recordParams records) = xv at *
    cases hstep with
    | err e => cases hpe
    | panic => cases hpe
    | ok hr =>
      rename_i rp rv
      obtain ⟨vp3, ct⟩ := rp
      obtain ⟨vv3, ct'⟩ := rv
      obtain ⟨hs3, rfl⟩ := hr
      simp only at hs3
      simp only [Outcome.bind_ok, Outcome.pure_eq, Outcome.ok.injEq, Prod.mk.injEq] at hpe
      obtain ⟨rfl, _⟩ := hpe
      simp only at hcp hcv
      obtain ⟨c1, _, b, c3, c4, c5⟩ := hcp
      obtain ⟨d1, _, b', d3, d4, d5⟩ := hcv
      simp only [Outcome.bind_ok] at hve
      cases hex : expectedSlices c ct with
      | none => rw [hex] at hve; cases hve
      | some ex =>
        rw [hex] at hve
        simp only [Outcome.ofPanic_some, Outcome.bind_ok, Outcome.pure_eq, Outcome.ok.injEq, Prod.mk.injEq] at hve
        obtain ⟨rfl, _⟩ := hve
        refine ⟨hs3.step.decodeAll _, hs3.agree.grow ⟨[], by simp⟩ ⟨[], by simp⟩ hs3.step.mem ?_ ?_⟩
        · intro mk hmk _; rw [decodeAll_marks] at hmk; exact .inl hmk
        · intro x hx
          rw [decodeAll_ops] at hx
          simp only [List.mem_append, List.mem_map] at hx
          rcases hx with hx | hx
          · exact .inl hx
          · right
            obtain ⟨y, ⟨en, hen, rfl⟩, hxe⟩ := hx
            injection hxe with hxe
            subst hxe
            -- both ciphertexts are the recorded one
            rw [cipher_cells aes kp ip records vp.mem.length T hl2 (fun x a ha => by
              have hx := addrAt_layout_inv _ _ ha
              rw [g6 x a ha, if_pos hx]; exact hdp x ((hTmem x).1 hx))] at c5
            rw [cipher_cells aes kv iv' records vp.mem.length T hl2' (fun x a ha => by
              obtain ⟨a0, _, _, r3⟩ := hrep
              obtain ⟨v, r1, r2⟩ := r3 x a ha
              have hlt : a < vv2.mem.length := by have := hspan x a ha; omega
              rw [decodeAll_mem, d1.getElem? hlt] at r1
              rw [r1, r2])] at d5
            have hbb : b = b' ∨ T.ranges = [] := by
              rw [c3] at d3
              cases hr : T.ranges with
              | nil => exact .inr rfl
              | cons r t =>
                rw [hr] at d3
                simp only [layout, List.cons.injEq, Prod.mk.injEq, VmVec.mk.injEq] at d3
                exact .inl d3.1.2.1
            have hen' := hen
            rw [c3] at hen
            rcases hbb with rfl | hnil
            swap
            · rw [hnil] at hen; simp [layout] at hen
            obtain ⟨r, hr, _, _, e3, e4⟩ := mem_layout hen
            have e4' := e4
            rw [totalLen_ranges] at e4
            have hin : en.2.addr + en.2.len ≤ (decodeAll vp3 (ct.map (·.2))).1.mem.length := by
              rw [decodeAll_mem]; omega
            have hin' : en.2.addr + en.2.len ≤ (decodeAll vv3 (ct.map (·.2))).1.mem.length := by
              rw [decodeAll_mem]; omega
            refine ⟨_, ⟨hin, rfl⟩, hin', ?_⟩
            refine (read_cells (v := en.2) fun j hj => ?_).symm
            have hcd := c5.trans d5.symm
            have := congrArg (·[en.2.addr + j - b]?) hcd
            rw [List.getElem?_take_of_lt (by omega), List.getElem?_take_of_lt (by omega), List.getElem?_drop,
              List.getElem?_drop, show b + (en.2.addr + j - b) = en.2.addr + j by omega] at this
            rw [decodeAll_mem, decodeAll_mem]
            exact this

end Tlsn
