import Verif.Auth.Plain

/-! # `verify_plaintext`: success, failure and the meaning of an accepted proof -/

namespace Tlsn

theorem grew_of_prefix {vm vm' : ZkVm} (hl : vm.mem.length ≤ vm'.mem.length)
    (h : ∀ a < vm.mem.length, vm'.mem[a]? = vm.mem[a]?) : Grew vm vm' := by
  refine ⟨vm'.mem.drop vm.mem.length, ?_⟩
  have : vm'.mem.take vm.mem.length = vm.mem := by
    apply List.ext_getElem?
    intro a
    by_cases ha : a < vm.mem.length
    · rw [List.getElem?_take_of_lt ha, h a ha]
    · rw [List.getElem?_eq_none (by simp; omega), List.getElem?_eq_none (by omega)]
  conv => lhs; rw [← List.take_append_drop vm.mem.length vm'.mem, this]

theorem Grew.getElem? {vm vm' : ZkVm} (h : Grew vm vm') {a : Nat} (ha : a < vm.mem.length) :
    vm'.mem[a]? = vm.mem[a]? := by
  obtain ⟨m, hm⟩ := h
  rw [hm, List.getElem?_append_left ha]

/-! ## Comparing ciphertexts -/

theorem expectedSlices_some (c : Bytes) (b : Nat) {rs : List Rng} (hne : ∀ r ∈ rs, r.1 < r.2)
    (h : ∀ r ∈ rs, r.2 ≤ c.length) : ∃ ex, expectedSlices c (layout b rs) = some ex := by
  induction rs generalizing b with
  | nil => exact ⟨[], rfl⟩
  | cons r t ih =>
    obtain ⟨ex, hex⟩ := ih (b + (r.2 - r.1)) (fun q hq => hne q (by simp [hq])) fun q hq => h q (by simp [hq])
    have h1 := hne r (by simp)
    have h2 := h r (by simp)
    refine ⟨(c.take (r.1 + (r.2 - r.1))).drop r.1 :: ex, ?_⟩
    simp only [layout, expectedSlices]
    rw [slice_isSome (by omega) (by omega), hex]; rfl

theorem take_drop_eq_iff (a b : Bytes) (s l t : Nat) (_ : s + l ≤ a.length) (hb : t + l ≤ b.length) :
    (a.drop s).take l = (b.take (t + l)).drop t ↔ ∀ j < l, a[s + j]? = b[t + j]? := by
  constructor
  · intro h j hj
    have := congrArg (·[j]?) h
    simp only [List.getElem?_take_of_lt hj, List.getElem?_drop] at this
    rw [this, List.getElem?_take_of_lt (by omega)]
  · intro h
    apply List.ext_getElem?
    intro j
    by_cases hj : j < l
    · rw [List.getElem?_take_of_lt hj, List.getElem?_drop, List.getElem?_drop, List.getElem?_take_of_lt (by omega)]
      exact h j hj
    · rw [List.getElem?_eq_none (by simp; omega), List.getElem?_eq_none (by simp; omega)]

theorem zk_all_iff (vm : ZkVm) (c : Bytes) (b : Nat) {rs : List Rng} (hne : ∀ r ∈ rs, r.1 < r.2)
    (h : ∀ r ∈ rs, r.2 ≤ c.length) (hb : b + totalLen rs ≤ vm.mem.length) {ex : List Bytes}
    (hex : expectedSlices c (layout b rs) = some ex) :
    ((ex.zip (((layout b rs).map (·.2)).map vm.read)).all fun p => decide (p.2 = p.1)) = true ↔
      ∀ j x, (positions rs)[j]? = some x → vm.mem[b + j]? = c[x]? := by
  induction rs generalizing b ex with
  | nil => simp [layout, expectedSlices] at hex; subst hex; simp
  | cons r t ih =>
    have h1 := hne r (by simp)
    have h2 := h r (by simp)
    rw [totalLen_cons] at hb
    simp only [layout, expectedSlices] at hex
    rw [slice_isSome (by omega) (by omega)] at hex
    simp only [Option.bind_eq_bind, Option.bind_some, Option.bind_eq_some_iff, Option.pure_def, Option.some.injEq] at hex
    obtain ⟨ex', hex', rfl⟩ := hex
    have ih := ih (b + (r.2 - r.1)) (fun q hq => hne q (by simp [hq])) (fun q hq => h q (by simp [hq]))
      (by omega) hex'
    simp only [layout, List.map_cons, List.zip_cons_cons, List.all_cons, Bool.and_eq_true, decide_eq_true_eq, ih]
    simp only [ZkVm.read]
    rw [take_drop_eq_iff _ _ _ _ _ (by omega) (by omega), positions_cons]
    constructor
    · rintro ⟨i1, i2⟩ j x hx
      rw [List.getElem?_append] at hx
      simp only [List.length_range'] at hx
      split at hx
      · rename_i hj
        rw [List.getElem?_range' hj] at hx
        simp at hx; subst hx
        exact i1 j hj
      · have := i2 _ _ hx
        rw [← this]; congr 1; omega
    · intro hall
      constructor
      · intro j hj
        refine hall j _ ?_
        rw [List.getElem?_append_left (by simpa using hj), List.getElem?_range' hj]; simp
      · intro j x hx
        have := hall (r.2 - r.1 + j) x (by
          rw [List.getElem?_append_right (by simp)]; simpa using hx)
        rw [← this]; congr 1; omega

/-! ## The assigned references -/

/-- What the references hold after the verifier (or prover) assigned the subset `pub` of the allocated set. -/
theorem assign_index {vm0 vm : ZkVm} {t pub : RangeSet} (p : Bytes)
    (hp : pub.endD ≤ p.length) {m : RangeMap}
    (hmi : (∀ x ∈ m, ∃ r ∈ pub.ranges, x.1 = r.1 ∧ (layout vm0.mem.length t.ranges).get r = some x.2) ∧
      ∀ r ∈ pub.ranges, ∃ s, (layout vm0.mem.length t.ranges).get r = some s ∧ (r.1, s) ∈ m)
    (hg : Grew vm0 vm) (hl : vm0.mem.length + t.len ≤ vm.mem.length) :
    ∃ vm', assignAll p m vm = .ok vm' ∧ vm'.mem.length = vm.mem.length ∧ vm'.ops = vm.ops ∧
      vm'.marks = vm.marks ∧ Grew vm0 vm' ∧
      ∀ x a, (layout vm0.mem.length t.ranges).addrAt x = some a →
        vm'.mem[a]? = if x ∈ pub then p[x]? else vm.mem[a]? := by
  have hgood := layout_good vm0.mem.length t.canon
  have hcell : ∀ e ∈ m, ∃ r ∈ pub.ranges, e.1 = r.1 ∧ e.2.len = r.2 - r.1 ∧
      ∀ k < e.2.len, (layout vm0.mem.length t.ranges).addrAt (e.1 + k) = some (e.2.addr + k) := by
    intro e he
    obtain ⟨r, hr, h1, h2⟩ := hmi.1 e he
    obtain ⟨h3, h4⟩ := RangeMap.get_addrAt hgood h2
    exact ⟨r, hr, h1, h3, fun k hk => by rw [h1]; exact h4 k hk⟩
  have hrange : ∀ x a, (layout vm0.mem.length t.ranges).addrAt x = some a →
      vm0.mem.length ≤ a ∧ a < vm0.mem.length + t.len := by
    intro x a h
    obtain ⟨j, _, h1, h2⟩ := addrAt_layout_mem vm0.mem.length t (addrAt_layout_inv _ _ h)
    rw [h] at h2; simp at h2
    rw [totalLen_ranges] at h1
    omega
  have hspan : ∀ e ∈ m, vm0.mem.length ≤ e.2.addr ∧ e.2.addr + e.2.len ≤ vm0.mem.length + t.len := by
    intro e he
    obtain ⟨r, hr, h1, h2, h3⟩ := hcell e he
    have hne := pub.canon.nonempty r hr
    have a1 := hrange _ _ (h3 0 (by omega))
    have a2 := hrange _ _ (h3 (e.2.len - 1) (by omega))
    omega
  have hin : InMem vm (m.map (·.2)) := by
    intro v hv
    obtain ⟨e, he, rfl⟩ := List.mem_map.1 hv
    have := hspan e he; omega
  have hpl : ∀ e ∈ m, e.1 + e.2.len ≤ p.length := by
    intro e he
    obtain ⟨r, hr, h1, h2, _⟩ := hcell e he
    have hne := pub.canon.nonempty r hr
    have : r.2 - 1 ∈ pub := ⟨r, hr, by omega, by omega⟩
    have := RangeSet.mem_lt_endD this
    omega
  obtain ⟨vm', g1, g2, g3, g4, g5⟩ := assignAll_spec p m vm hin hpl
  refine ⟨vm', g1, g2, g3, g4, ?_, ?_⟩
  · refine grew_of_prefix (by omega) fun a ha => ?_
    rcases g5 a with ⟨e, he, h1, _⟩ | ⟨_, h2⟩
    · have := hspan e he; omega
    · rw [h2, hg.getElem? ha]
  · intro x a hxa
    rcases g5 a with ⟨e, he, h1, h2⟩ | ⟨h1, h2⟩
    · obtain ⟨r, hr, e1, e2, e3⟩ := hcell e he
      have := e3 (a - e.2.addr) (by omega)
      have ea : e.2.addr + (a - e.2.addr) = a := by omega
      rw [ea] at this
      have hx := addrAt_layout_inj _ _ hxa this
      have hpubx : x ∈ pub := ⟨r, hr, by omega, by omega⟩
      rw [if_pos hpubx, h2, hx]
    · rw [h2]
      rw [if_neg]
      intro hx
      obtain ⟨r, hr, q1, q2⟩ := hx
      obtain ⟨s, hs, hsm⟩ := hmi.2 r hr
      obtain ⟨l1, l2⟩ := RangeMap.get_addrAt hgood hs
      have := l2 (x - r.1) (by omega)
      have ex : r.1 + (x - r.1) = x := by omega
      rw [ex, hxa] at this
      simp at this
      exact h1 (r.1, s) hsm (by simp only; omega)

/-- A range set covers everything up to `n`. -/
theorem isRevealAll_mem {e : Bool} {s : RangeSet} {n : Nat} (h : isRevealAll e s n = true) (x : Nat) :
    x ∈ s ↔ x < n := by
  unfold isRevealAll at h
  split at h
  · rename_i hn
    subst hn
    simp only [Bool.and_eq_true] at h
    have := RangeSet.isEmpty_iff.1 h.2 x
    simp [this]
  · simp at h
    rw [RangeSet.mem_def, h]; simp

/-! ## The specification of `verify_plaintext` -/

/-- What the verifier's inputs satisfy: the keys are in memory, nonces have eight bytes, the ciphertext is that of
the records, the plaintext has the same length, and the revealed ranges are inside it. -/
structure AuthPre (vm : ZkVm) (key iv : VmVec) (k i : Bytes) (p c : Bytes) (records : List Record)
    (reveal : RangeSet) : Prop where
  key : Holds vm key k
  iv : Holds vm iv i
  nonces : ∀ r ∈ records, r.nonce.length = 8
  cipher : c = records.flatMap (·.ciphertext)
  len : p.length = c.length
  reveal : reveal.endD ≤ p.length

theorem params_sum (records : List Record) :
    ((recordParams records).map (·.len)).sum = (records.flatMap (·.ciphertext)).length := by
  simp [recordParams, List.length_flatMap, Function.comp_def]

theorem params_nonce {records : List Record} (h : ∀ r ∈ records, r.nonce.length = 8) :
    ∀ r ∈ recordParams records, r.nonce.length = 8 := by
  intro r hr
  simp only [recordParams, List.mem_map] at hr
  obtain ⟨q, hq, rfl⟩ := hr
  exact h q hq

/-- Every byte of the set decrypts: the value in memory, xor the keystream, is the recorded ciphertext. -/
def Decrypts (aes : AesFn) (k i : Bytes) (records : List Record) (c : Bytes) (x : Nat) (v : Byte) : Prop :=
  ∃ ks ct, ksAt aes k i (recordParams records) x = some ks ∧ c[x]? = some ct ∧ v ^^^ ks = ct

/-- The whole layout, as an indexed map. -/
theorem layout_self (a : Nat) (t : RangeSet) :
    (∀ x ∈ layout a t.ranges, ∃ r ∈ t.ranges, x.1 = r.1 ∧ (layout a t.ranges).get r = some x.2) ∧
      ∀ r ∈ t.ranges, ∃ s, (layout a t.ranges).get r = some s ∧ (r.1, s) ∈ layout a t.ranges := by
  have hg := layout_good a t.canon
  have key : ∀ e ∈ layout a t.ranges, ∀ r ∈ t.ranges, e.1 = r.1 → e.2.len = r.2 - r.1 →
      (layout a t.ranges).get r = some e.2 := by
    intro e he r hr h1 h2
    have hne := t.canon.nonempty r hr
    rw [RangeMap.get_of_contained hg hne he (by omega) (by omega)]
    have : r.1 - e.1 = 0 := by omega
    rw [this, ← h2]
    simp
  constructor
  · intro e he
    obtain ⟨r, hr, h1, h2, _⟩ := mem_layout he
    exact ⟨r, hr, h1, key e he r hr h1 h2⟩
  · intro r hr
    obtain ⟨e, he, h1, h2⟩ := layout_of_mem (a := a) hr
    refine ⟨e.2, key e he r hr h1 h2, ?_⟩
    rw [← h1]; exact he

theorem verifyPlaintext_spec (aes : AesFn) (e : Bool) {vm : ZkVm} {key iv : VmVec} {k i p c : Bytes}
    {records : List Record} {reveal : RangeSet} (commit : RangeSet)
    (h : AuthPre vm key iv k i p c records reveal) (hc : commit.endD ≤ p.length) :
    ∃ vm' proof, verifyPlaintext aes e vm key iv p c records reveal commit =
        .ok (vm', layout vm.mem.length (allocRanges e reveal commit p.length).ranges, proof) ∧
      Grew vm vm' ∧
      (∀ x a, (layout vm.mem.length (allocRanges e reveal commit p.length).ranges).addrAt x = some a →
        ∃ v, vm'.mem[a]? = some v ∧ v = if x ∈ reveal then (p[x]?).getD 0 else vm.fill a) ∧
      ((proof.verify aes = .ok () ∧
          ∀ x, (x ∈ reveal ∨ x ∈ commit) → ∃ v, Decrypts aes k i records c x v ∧ (x ∈ reveal → p[x]? = some v) ∧
            ∀ a, (layout vm.mem.length (allocRanges e reveal commit p.length).ranges).addrAt x = some a →
              vm'.mem[a]? = some v) ∨
       (proof.verify aes = .err .invalidPlaintext ∧
          ∃ x v, (x ∈ reveal ∨ x ∈ commit) ∧ ¬ Decrypts aes k i records c x v ∧
            (x ∈ reveal → p[x]? = some v) ∧
            ∀ a, (layout vm.mem.length (allocRanges e reveal commit p.length).ranges).addrAt x = some a →
              vm'.mem[a]? = some v)) := by
  have hlen := h.len
  have hsum := params_sum records
  have hcl : ((recordParams records).map (·.len)).sum = c.length := by rw [hsum, h.cipher]
  have hnonce := params_nonce h.nonces
  have hpx : ∀ x, x < p.length → p[x]? = some ((p[x]?).getD 0) := by
    intro x hx; rw [List.getElem?_eq_getElem hx]; rfl
  have hcx : ∀ x, x < p.length → ∃ y, c[x]? = some y := by
    intro x hx; exact ⟨_, List.getElem?_eq_getElem (by rw [h.len.symm]; exact hx)⟩
  have hkx : ∀ x, x < p.length → ∃ y, ksAt aes k i (recordParams records) x = some y := by
    intro x hx
    exact Option.isSome_iff_exists.1 ((ksAt_isSome aes k i _ x).2 (by omega))
  simp only [verifyPlaintext, allocPlaintext_eq, Outcome.bind_ok]
  generalize hT : allocRanges e reveal commit p.length = T
  obtain ⟨m, hm1, hm2⟩ := alloc_mem vm T
  generalize hvm1 : (if T.len = 0 then vm else (vm.alloc T.len).1) = vm1 at hm1
  have hg1 : Grew vm vm1 := ⟨m, hm1⟩
  have hl1 : vm.mem.length + T.len ≤ vm1.mem.length := by rw [hm1, List.length_append]; omega
  by_cases hall : isRevealAll e reveal p.length = true
  · rw [if_pos hall]
    have hTc : T = commit := by rw [← hT]; simp [allocRanges, hall]
    have hrx := isRevealAll_mem hall
    have hTx : ∀ x ∈ T, x ∈ reveal := fun x hx => (hrx x).2 (by
      rw [hTc] at hx; have := RangeSet.mem_lt_endD hx; omega)
    obtain ⟨vm2, g1, g2, g3, g4, g5, g6⟩ := assign_index (vm0 := vm) (t := T)
      (vm := markAll ((vm1.decode key).1.decode iv).1 .pub (layout vm.mem.length T.ranges))
      (pub := T) p (by rw [hTc]; exact hc) (layout_self _ _)
      (by obtain ⟨m, hm⟩ := hg1; exact ⟨m, by rw [markAll_mem]; exact hm⟩) (by rw [markAll_mem]; exact hl1)
    have hkv : vm1.read key = k := (h.key.mono hg1).2
    have hiv : (vm1.decode key).1.read iv = i := (h.iv.mono hg1).2
    refine ⟨vm2, .withKey k i (recordParams records) p c, ?_, g5, ?_, ?_⟩
    · rw [g1]
      simp only [Outcome.bind_ok, Outcome.pure_eq, ZkVm.decode] at hkv hiv ⊢
      rw [hkv, hiv]
    · intro x a hxa
      have hx := addrAt_layout_inv _ _ hxa
      have hxr := hTx x hx
      refine ⟨_, ?_, rfl⟩
      rw [g6 x a hxa, if_pos hx, if_pos hxr]
      exact hpx x ((hrx x).1 hxr)
    · have hmem : ∀ x a, (layout vm.mem.length T.ranges).addrAt x = some a →
          vm2.mem[a]? = some ((p[x]?).getD 0) := by
        intro x a hxa
        have hx := addrAt_layout_inv _ _ hxa
        rw [g6 x a hxa, if_pos hx]
        exact hpx x ((hrx x).1 (hTx x hx))
      simp only [PlaintextProof.verify]
      rcases verifyWithKey_spec aes k i p c (recordParams records) 0 hnonce (by rw [hcl, h.len]; omega)
        (by omega) with ⟨v1, v2⟩ | ⟨v1, x, v2, v3, v4⟩
      · left
        refine ⟨v1, ?_⟩
        intro x hx
        have hxl : x < p.length := by
          rcases hx with hx | hx
          · exact (hrx x).1 hx
          · have := RangeSet.mem_lt_endD hx; omega
        obtain ⟨ks, hks⟩ := hkx x hxl
        obtain ⟨ct, hct⟩ := hcx x hxl
        refine ⟨_, ⟨ks, ct, hks, hct, ?_⟩, fun _ => hpx x hxl, hmem x⟩
        have := v2 x (Nat.zero_le _) (by rw [hcl]; rw [h.len] at hxl; omega)
        rw [hct, hpx x hxl, Nat.sub_zero, hks] at this
        simpa using this.symm
      · right
        refine ⟨v1, x, (p[x]?).getD 0, .inl ((hrx x).2 (by rw [hcl] at v3; rw [h.len]; omega)), ?_,
          fun _ => hpx x (by rw [hcl] at v3; rw [h.len]; omega), hmem x⟩
        rintro ⟨ks, ct, hks, hct, hv⟩
        apply v4
        rw [hct, hpx x (by rw [hcl] at v3; rw [h.len]; omega), Nat.sub_zero, hks]
        simp [hv]
  · rw [if_neg hall]
    have hTc : T = commit.union reveal := by rw [← hT]; simp [allocRanges, hall]
    have hTmem : ∀ x, x ∈ T ↔ x ∈ reveal ∨ x ∈ commit := by
      intro x; rw [hTc, RangeSet.mem_union]; exact or_comm
    have hTl : ∀ x ∈ T, x < p.length := by
      intro x hx
      rcases (hTmem x).1 hx with hx | hx
      · have := RangeSet.mem_lt_endD hx; have := h.reveal; omega
      · have := RangeSet.mem_lt_endD hx; omega
    have hpriv : commit.diff reveal ⊆ T := fun x hx => (hTmem x).2 (.inr (RangeSet.mem_diff.1 hx).1)
    have hpub : reveal ⊆ T := fun x hx => (hTmem x).2 (.inl hx)
    obtain ⟨mp, hmp, _⟩ := indexE_ok (a := vm.mem.length) hpriv
    obtain ⟨mq, hmq, hmq'⟩ := indexE_ok (a := vm.mem.length) hpub
    rw [hmp, hmq]
    simp only [Outcome.bind_ok]
    obtain ⟨vm2, g1, g2, g3, g4, g5, g6⟩ := assign_index (vm0 := vm) (t := T)
      (vm := markAll (markAll vm1 .blind mp) .pub mq) (pub := reveal) p h.reveal
      (RangeMap.mem_index (layout_good _ T.canon) reveal.canon.nonempty hmq')
      (by obtain ⟨m, hm⟩ := hg1; exact ⟨m, by simpa using hm⟩) (by simpa using hl1)
    rw [g1]
    simp only [Outcome.bind_ok]
    have hl2 : vm.mem.length + T.len ≤ vm2.mem.length := by rw [g2]; simpa using hl1
    have hct := allocCiphertext_spec aes (h.key.mono g5) (h.iv.mono g5) vm.mem.length T hl2 (recordParams records)
    revert hct
    cases hact : allocCiphertext aes vm2 key iv (layout vm.mem.length T.ranges) (recordParams records) with
    | panic => exact fun h => h.elim
    | err er =>
      simp only
      rintro (⟨_, r, hr, hr8⟩ | ⟨_, x, hx, hle⟩)
      · exact absurd (hnonce r hr) hr8
      · have := hTl x hx
        rw [hcl, ← h.len] at hle; omega
    | ok res =>
      obtain ⟨vm3, ctm⟩ := res
      simp only
      rintro ⟨c1, c2, b, rfl, c4, c5⟩
      simp only [Outcome.bind_ok]
      have hrl : ∀ r ∈ T.ranges, r.2 ≤ c.length := by
        intro r hr
        have hne := T.canon.nonempty r hr
        have := hTl (r.2 - 1) ⟨r, hr, by omega, by omega⟩
        rw [← h.len]; omega
      obtain ⟨ex, hex⟩ := expectedSlices_some c b T.canon.nonempty hrl
      rw [hex]
      simp only [Outcome.ofPanic_some, Outcome.bind_ok, Outcome.pure_eq]
      have hfill : ∀ a, vm.mem.length ≤ a → a < vm.mem.length + T.len → vm1.mem[a]? = some (vm.fill a) := by
        intro a ha1 ha2
        have : T.len ≠ 0 := by omega
        rw [← hvm1, if_neg this]
        simp only [ZkVm.alloc]
        rw [List.getElem?_append_right ha1, List.getElem?_map, List.getElem?_range' (by omega)]
        simp; congr 1; omega
      have hval : ∀ x a, (layout vm.mem.length T.ranges).addrAt x = some a →
          vm3.mem[a]? = some (if x ∈ reveal then (p[x]?).getD 0 else vm.fill a) := by
        intro x a hxa
        obtain ⟨j, hj, hj1, hj2⟩ := addrAt_layout_mem vm.mem.length T (addrAt_layout_inv _ _ hxa)
        rw [hxa] at hj2
        simp at hj2
        rw [totalLen_ranges] at hj1
        rw [c1.getElem? (by omega), g6 x a hxa]
        split
        · rename_i hx
          exact hpx x (hTl x (hpub x hx))
        · simp only [markAll_mem]
          exact hfill a (by omega) (by omega)
      refine ⟨_, _, rfl, ?_, ?_, ?_⟩
      · obtain ⟨m, hm⟩ := g5.trans c1
        exact ⟨m, by rw [decodeAll_mem]; exact hm⟩
      · intro x a hxa
        rw [decodeAll_mem]
        exact ⟨_, hval x a hxa, rfl⟩
      · have hiff := zk_all_iff vm3 c b T.canon.nonempty hrl c4 hex
        have hcell : ∀ j x, (positions T.ranges)[j]? = some x → ∃ v ks, vm3.mem[vm.mem.length + j]? = some v ∧
            ksAt aes k i (recordParams records) x = some ks ∧ vm3.mem[b + j]? = some (v ^^^ ks) := by
          intro j x hj
          have hx : x ∈ T := mem_positions.1 (List.mem_of_getElem? hj)
          have hjl : j < T.len := by
            rw [← totalLen_ranges, ← positions_length]
            rcases List.getElem?_eq_some_iff.1 hj with ⟨h, _⟩; exact h
          have hv := hval x _ (addrAt_layout vm.mem.length T.canon j x hj)
          obtain ⟨ks, hks⟩ := hkx x (hTl x hx)
          refine ⟨_, ks, hv, hks, ?_⟩
          have h5 := congrArg (·[j]?) c5
          simp only [List.getElem?_take_of_lt hjl, List.getElem?_drop, xorBytes, List.getElem?_zipWith,
            List.getElem?_map, hj, Option.map_some, hks, Option.getD_some] at h5
          rw [← c1.getElem? (by omega), hv] at h5
          exact h5
        simp only [PlaintextProof.verify, decodeAll_mem, decodeAll_values]
        by_cases hok : ((ex.zip (((layout b T.ranges).map (·.2)).map vm3.read)).all fun p => decide (p.2 = p.1)) = true
        · left
          rw [if_pos hok]
          refine ⟨rfl, ?_⟩
          intro x hx
          obtain ⟨j, hj, hj1, hj2⟩ := addrAt_layout_mem vm.mem.length T ((hTmem x).2 hx)
          obtain ⟨v, ks, hv, hks, hb⟩ := hcell j x hj
          have hcj := hiff.1 hok j x hj
          refine ⟨v, ⟨ks, v ^^^ ks, hks, by rw [← hcj, hb], rfl⟩, ?_, ?_⟩
          · intro hxr
            have := hval x _ hj2
            rw [hv, if_pos hxr] at this
            rw [hpx x (hTl x (hpub x hxr))]
            exact this.symm
          · intro a ha
            rw [hj2] at ha; simp at ha; subst ha; exact hv
        · right
          rw [if_neg hok]
          refine ⟨rfl, ?_⟩
          rw [hiff] at hok
          obtain ⟨j, x, hj, hne⟩ : ∃ j x, ∃ _ : (positions T.ranges)[j]? = some x, vm3.mem[b + j]? ≠ c[x]? := by
            apply Classical.byContradiction
            intro hn
            apply hok
            intro j x hj
            apply Classical.byContradiction
            intro hne
            exact hn ⟨j, x, hj, hne⟩
          obtain ⟨v, ks, hv, hks, hb⟩ := hcell j x hj
          have hx : x ∈ T := mem_positions.1 (List.mem_of_getElem? hj)
          refine ⟨x, v, (hTmem x).1 hx, ?_, ?_, ?_⟩
          · rintro ⟨ks', ct, h1, h2, h3⟩
            rw [hks] at h1; simp at h1; subst h1
            exact hne (by rw [hb, h2, h3])
          · intro hxr
            have := hval x _ (addrAt_layout vm.mem.length T.canon j x hj)
            rw [hv, if_pos hxr] at this
            rw [hpx x (hTl x (hpub x hxr))]
            exact this.symm
          · intro a ha
            rw [addrAt_layout vm.mem.length T.canon j x hj] at ha
            simp at ha; subst ha; exact hv

end Tlsn
