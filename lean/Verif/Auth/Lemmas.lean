import Verif.Auth.Model
import Verif.Auth.RangeMap

/-! # Lemmas about the plaintext proof -/

namespace Tlsn

/-- The positions of a list of ranges, in order. -/
def positions (rs : List Rng) : List Nat := rs.flatMap fun r => List.range' r.1 (r.2 - r.1)

@[simp] theorem positions_nil : positions [] = [] := rfl
theorem positions_cons (r : Rng) (rs : List Rng) :
    positions (r :: rs) = List.range' r.1 (r.2 - r.1) ++ positions rs := rfl

theorem positions_values (s : RangeSet) : positions s.ranges = s.values := rfl

/-! ## References that hold a value -/

/-- The reference lies in memory and holds the value. -/
def Holds (vm : ZkVm) (v : VmVec) (b : Bytes) : Prop :=
  v.addr + v.len ≤ vm.mem.length ∧ vm.read v = b

theorem Holds.length {vm : ZkVm} {v : VmVec} {b : Bytes} (h : Holds vm v b) : b.length = v.len := by
  obtain ⟨h1, rfl⟩ := h
  simp [ZkVm.read]; omega

/-- Memory only grew. -/
def Grew (vm vm' : ZkVm) : Prop := ∃ m, vm'.mem = vm.mem ++ m

theorem Grew.refl (vm : ZkVm) : Grew vm vm := ⟨[], by simp⟩
theorem Grew.trans {a b c : ZkVm} (h : Grew a b) (h' : Grew b c) : Grew a c := by
  obtain ⟨x, hx⟩ := h; obtain ⟨y, hy⟩ := h'
  exact ⟨x ++ y, by rw [hy, hx, List.append_assoc]⟩

theorem read_of_mem_append {vm vm' : ZkVm} {m : Bytes} (h : vm'.mem = vm.mem ++ m) {v : VmVec}
    (hv : v.addr + v.len ≤ vm.mem.length) : vm'.read v = vm.read v := by
  simp only [ZkVm.read, h]
  rw [List.drop_append_of_le_length (by omega), List.take_append_of_le_length (by simp; omega)]

theorem Holds.mono {vm vm' : ZkVm} (h : Grew vm vm') {v : VmVec} {b : Bytes} (hv : Holds vm v b) :
    Holds vm' v b := by
  obtain ⟨m, hm⟩ := h
  refine ⟨by rw [hm, List.length_append]; have := hv.1; omega, ?_⟩
  rw [read_of_mem_append hm hv.1, hv.2]

theorem read_fresh {vm : ZkVm} {m a b : Bytes} {v : VmVec} (h : vm.mem = m ++ (a ++ b))
    (ha : v.addr = m.length) (hl : v.len = a.length) : Holds vm v a := by
  constructor
  · rw [h]; simp; omega
  · simp only [ZkVm.read, h, ha, hl]
    rw [List.drop_append_of_le_length (by omega)]
    simp

/-! ## Nonces and blocks -/

theorem assignE_fresh {vm : ZkVm} {n : Nat} {vis : Vis} {b : Bytes} :
    ((vm.alloc n).1.mark (vm.alloc n).2 vis).assignE (vm.alloc n).2 b =
      if b.length = n then .ok
        { vm with mem := vm.mem ++ b, ops := vm.ops ++ [.alloc n], marks := vm.marks ++ [(⟨vm.mem.length, n⟩, vis)] }
      else .err .vm := by
  simp only [ZkVm.assignE, ZkVm.assign, ZkVm.alloc, ZkVm.mark]
  by_cases h : b.length = n
  · subst h
    simp [writeAt]
  · simp [h]

theorem allocNonce_eq (vm : ZkVm) (nonce : Bytes) : allocNonce vm nonce =
    if nonce.length = 8 then .ok
      ({ vm with mem := vm.mem ++ nonce, ops := vm.ops ++ [.alloc 8],
                 marks := vm.marks ++ [(⟨vm.mem.length, 8⟩, .pub)] }, ⟨vm.mem.length, 8⟩)
    else .err .vm := by
  simp only [allocNonce]
  rw [assignE_fresh]
  split <;> simp [ZkVm.alloc]

/-- The keystream block of a record. -/
def ksBlock (aes : AesFn) (key iv nonce : Bytes) (n : Nat) : Bytes :=
  (aes key (iv ++ (nonce ++ beBytes 4 (2 + n)))).toList

theorem allocBlock_eq (aes : AesFn) {vm : ZkVm} {key iv nonce : VmVec} {k i nc : Bytes} (hk : Holds vm key k)
    (hi : Holds vm iv i) (hn : Holds vm nonce nc) (n : Nat) :
    allocBlock aes vm key iv nonce n = .ok
      ({ vm with mem := vm.mem ++ (beBytes 4 (2 + n) ++ ksBlock aes k i nc n),
                 ops := vm.ops ++ [.alloc 4, .aes key iv nonce ⟨vm.mem.length, 4⟩],
                 marks := vm.marks ++ [(⟨vm.mem.length, 4⟩, .pub)] }, ⟨vm.mem.length + 4, 16⟩) := by
  simp only [allocBlock]
  rw [assignE_fresh, if_pos (by simp), Outcome.bind_ok, Outcome.pure_eq]
  simp only [ZkVm.call, ZkVm.alloc]
  rw [read_of_mem_append (vm := vm) rfl hk.1, hk.2, read_of_mem_append (vm := vm) rfl hi.1, hi.2,
    read_of_mem_append (vm := vm) rfl hn.1, hn.2]
  have h := (read_fresh (m := vm.mem) (a := beBytes 4 (2 + n)) (b := []) (v := ⟨vm.mem.length, 4⟩)
    (vm := { vm with mem := vm.mem ++ beBytes 4 (2 + n), ops := vm.ops ++ [.alloc 4],
                     marks := vm.marks ++ [(⟨vm.mem.length, 4⟩, .pub)] }) (by simp) rfl (by simp)).2
  rw [h]
  simp [ksBlock]

@[simp] theorem ksBlock_length (aes : AesFn) (k i n : Bytes) (j : Nat) : (ksBlock aes k i n j).length = 16 := by
  simp [ksBlock]

theorem allocBlock_ok (aes : AesFn) {vm : ZkVm} {key iv nonce : VmVec} {k i nc : Bytes} (hk : Holds vm key k)
    (hi : Holds vm iv i) (hn : Holds vm nonce nc) (n : Nat) :
    ∃ vm' b, allocBlock aes vm key iv nonce n = .ok (vm', b) ∧ Grew vm vm' ∧
      Holds vm' b (ksBlock aes k i nc n) := by
  refine ⟨_, _, allocBlock_eq aes hk hi hn n, ⟨_, rfl⟩, ?_⟩
  refine read_fresh (m := vm.mem ++ beBytes 4 (2 + n)) (b := []) ?_ (by simp) (by simp)
  simp

theorem allocNonce_ok {vm vm' : ZkVm} {nonce : Bytes} {v : VmVec} (h : allocNonce vm nonce = .ok (vm', v)) :
    nonce.length = 8 ∧ Grew vm vm' ∧ Holds vm' v nonce := by
  rw [allocNonce_eq] at h
  split at h
  · rename_i hl
    simp only [Outcome.ok.injEq, Prod.mk.injEq] at h
    obtain ⟨rfl, rfl⟩ := h
    exact ⟨hl, ⟨_, rfl⟩, read_fresh (m := vm.mem) (b := []) (by simp) rfl (by simp [hl])⟩
  · simp at h

/-- The cached block is the right one. -/
def CurOk (aes : AesFn) (vm : ZkVm) (k i nc : Bytes) (cur : Option (Nat × VmVec)) : Prop :=
  ∀ n b, cur = some (n, b) → Holds vm b (ksBlock aes k i nc n)

theorem blockFor_ok (aes : AesFn) {vm : ZkVm} {key iv nonce : VmVec} {k i nc : Bytes} (hk : Holds vm key k)
    (hi : Holds vm iv i) (hn : Holds vm nonce nc) (n : Nat) {cur : Option (Nat × VmVec)}
    (hc : CurOk aes vm k i nc cur) :
    ∃ vm' b cur', blockFor aes vm key iv nonce n cur = .ok (vm', b, cur') ∧ Grew vm vm' ∧
      Holds vm' b (ksBlock aes k i nc n) ∧ CurOk aes vm' k i nc cur' := by
  unfold blockFor
  by_cases h : cur.map (·.1) = some n
  · rw [if_pos h]
    obtain ⟨⟨n', b⟩, rfl, h2⟩ := Option.map_eq_some_iff.1 h
    simp only at h2; subst h2
    refine ⟨vm, b, none, rfl, Grew.refl _, hc _ _ rfl, ?_⟩
    intro n b hb; simp at hb
  · rw [if_neg h]
    obtain ⟨vm', b, h1, h2, h3⟩ := allocBlock_ok aes hk hi hn n
    rw [h1]
    refine ⟨vm', b, _, rfl, h2, h3, ?_⟩
    intro n' b' hb
    simp at hb; obtain ⟨rfl, rfl⟩ := hb; exact h3

/-! ## The keystream loop -/

/-- Specification: the keystream byte at position `i` of the application data carried by the records. -/
def ksAt (aes : AesFn) (key iv : Bytes) : List RecordParams → Nat → Option Byte
  | [], _ => none
  | r :: rs, i =>
    if i < r.len then (ksBlock aes key iv r.nonce (i / 16))[i % 16]? else ksAt aes key iv rs (i - r.len)

/-- The bytes behind a list of references. -/
def readAll (vm : ZkVm) (vs : List VmVec) : Bytes := vs.flatMap vm.read

theorem readAll_append (vm : ZkVm) (a b : List VmVec) : readAll vm (a ++ b) = readAll vm a ++ readAll vm b := by
  simp [readAll]

/-- All references lie in memory. -/
def InMem (vm : ZkVm) (vs : List VmVec) : Prop := ∀ v ∈ vs, v.addr + v.len ≤ vm.mem.length

theorem InMem.mono {vm vm' : ZkVm} (h : Grew vm vm') {vs : List VmVec} (hv : InMem vm vs) : InMem vm' vs := by
  obtain ⟨m, hm⟩ := h
  intro v hv'; have := hv v hv'; rw [hm, List.length_append]; omega

theorem readAll_mono {vm vm' : ZkVm} (h : Grew vm vm') {vs : List VmVec} (hv : InMem vm vs) :
    readAll vm' vs = readAll vm vs := by
  obtain ⟨m, hm⟩ := h
  induction vs with
  | nil => rfl
  | cons v t ih =>
    have h1 := read_of_mem_append hm (hv v (by simp))
    have h2 := ih fun x hx => hv x (by simp [hx])
    simp only [readAll, List.flatMap_cons] at h2 ⊢
    rw [h1, h2]

theorem range'_split (a n m : Nat) (h : m ≤ n) :
    List.range' a n = List.range' a m ++ List.range' (a + m) (n - m) := by
  have : n = m + (n - m) := by omega
  conv => lhs; rw [this]
  rw [← List.range'_append]; simp

/-- A piece of a block. -/
theorem piece_read {vm : ZkVm} {blk piece : VmVec} {b : Bytes} (hb : Holds vm blk b) {s l : Nat}
    (h : blk.get s (s + l) = some piece) : Holds vm piece ((b.drop s).take l) := by
  unfold VmVec.get at h
  split at h
  · rename_i hc
    simp at h; subst h
    refine ⟨by have := hb.1; simp only; omega, ?_⟩
    rw [← hb.2]
    simp only [ZkVm.read]
    rw [List.drop_take, List.drop_drop, List.take_take]
    congr 1; omega
  · simp at h

theorem drop_take_eq_map {b : Bytes} (s l : Nat) (f : Nat → Byte) (a : Nat)
    (hf : ∀ j < l, b[s + j]? = some (f (a + j))) : (b.drop s).take l = (List.range' a l).map f := by
  apply List.ext_getElem?
  intro j
  by_cases hj : j < l
  · rw [List.getElem?_take_of_lt hj, List.getElem?_drop, hf j hj]
    rw [List.getElem?_map, List.getElem?_range' hj]; simp
  · rw [List.getElem?_eq_none (by simp; omega), List.getElem?_eq_none (by simp; omega)]

/-- What a call of `recordLoop` achieves. -/
theorem recordLoop_spec (aes : AesFn) {key iv : VmVec} {k i : Bytes} (rec : RecordParams) (pos : Nat)
    (fuel : Nat) (st : KsState) (nonce : Option VmVec) (cur : Option (Nat × VmVec))
    (hk : Holds st.vm key k) (hi : Holds st.vm iv i)
    (hn : ∀ v, nonce = some v → Holds st.vm v rec.nonce)
    (hcur : CurOk aes st.vm k i rec.nonce cur) (hcn : nonce = none → cur = none)
    (hcanon : Canon st.work) (hpos : ∀ r ∈ st.work, pos ≤ r.1) (hin : InMem st.vm st.out) :
    match recordLoop aes key iv rec pos fuel st nonce cur with
    | .ok (st', done) =>
      Grew st.vm st'.vm ∧ InMem st'.vm st'.out ∧ Canon st'.work ∧
      (∀ r ∈ st'.work, pos + rec.len ≤ r.1) ∧ (done = true ↔ st'.work = []) ∧
      ∃ front, positions st.work = front ++ positions st'.work ∧ (∀ x ∈ front, pos ≤ x ∧ x < pos + rec.len) ∧
        readAll st'.vm st'.out = readAll st.vm st.out ++
          front.map fun x => ((ksBlock aes k i rec.nonce ((x - pos) / 16))[(x - pos) % 16]?).getD 0
    | .err e => e = .vm ∧ rec.nonce.length ≠ 8
    | .panic => fuel < ksFuel st.work := by
  induction fuel generalizing st nonce cur with
  | zero => simp [recordLoop, ksFuel]
  | succ fuel ih =>
    simp only [recordLoop]
    cases hw : st.work with
    | nil =>
      simp only
      refine ⟨Grew.refl _, hin, by simp [hw, Canon], by simp [hw], by simp [hw], [], by simp [hw], by simp, by simp⟩
    | cons r rest =>
      obtain ⟨a, b⟩ := r
      simp only
      have hab : a < b := by rw [hw] at hcanon; exact hcanon.head
      have hpa : pos ≤ a := hpos (a, b) (by simp [hw])
      by_cases hge : a ≥ pos + rec.len
      · rw [if_pos hge]
        simp only
        refine ⟨Grew.refl _, hin, hcanon, ?_, by simp [hw], [], by simp [hw], by simp, by simp⟩
        intro q hq
        rw [hw] at hq hcanon
        rcases List.mem_cons.1 hq with rfl | hq
        · exact hge
        · have := hcanon.head_lt q hq; simp only at this; omega
      · rw [if_neg hge]
        have hnf : (∃ vm nv, nonceFor st.vm rec.nonce nonce = .ok (vm, nv) ∧ Grew st.vm vm ∧
              Holds vm nv rec.nonce) ∨
            (nonceFor st.vm rec.nonce nonce = .err .vm ∧ rec.nonce.length ≠ 8) := by
          cases hnn : nonce with
          | some v => exact .inl ⟨st.vm, v, rfl, Grew.refl _, hn v hnn⟩
          | none =>
            simp only [nonceFor]
            by_cases h8 : rec.nonce.length = 8
            · left
              have he := allocNonce_eq st.vm rec.nonce
              rw [if_pos h8] at he
              have := allocNonce_ok he
              exact ⟨_, _, he, this.2.1, this.2.2⟩
            · right
              rw [allocNonce_eq, if_neg h8]; exact ⟨rfl, h8⟩
        rcases hnf with ⟨vm1, nv, h1, hg1, hnv⟩ | ⟨h1, h8⟩
        · rw [h1]
          simp only
          have hcur1 : CurOk aes vm1 k i rec.nonce cur := fun n b hb => (hcur n b hb).mono hg1
          obtain ⟨vm2, blk, cur2, h2, hg2, hblk, hcur2⟩ :=
            blockFor_ok aes (hk.mono hg1) (hi.mono hg1) hnv ((a - pos) / 16) hcur1
          rw [h2]
          simp only
          generalize hlen : min (min b (pos + rec.len) - a) (16 - (a - pos) % 16) = len
          have hlpos : 0 < len := by omega
          have hl16 : (a - pos) % 16 + len ≤ 16 := by omega
          have hlb : a + len ≤ b := by omega
          have hlr : a + len ≤ pos + rec.len := by omega
          have hbl : blk.len = 16 := by rw [← hblk.length]; simp
          cases hp : blk.get ((a - pos) % 16) ((a - pos) % 16 + len) with
          | none =>
            exfalso
            unfold VmVec.get at hp
            rw [if_pos (by omega)] at hp
            simp at hp
          | some piece =>
            simp only
            have hpr := piece_read hblk hp
            have hg12 := hg1.trans hg2
            have hin2 : InMem vm2 (st.out ++ [piece]) := by
              intro v hv
              rcases List.mem_append.1 hv with hv | hv
              · exact hin.mono hg12 v hv
              · simp at hv; subst hv; exact hpr.1
            have hcw : Canon (if a + len < b then (a + len, b) :: rest else rest) := by
              rw [hw] at hcanon
              split
              · cases rest with
                | nil => show a + len < b; assumption
                | cons s t => exact ⟨by assumption, hcanon.2.1, hcanon.2.2⟩
              · exact hcanon.tail
            have hpw : ∀ r ∈ (if a + len < b then (a + len, b) :: rest else rest), pos ≤ r.1 := by
              intro q hq
              split at hq
              · rcases List.mem_cons.1 hq with rfl | hq
                · simp only; omega
                · exact hpos q (by simp [hw, hq])
              · exact hpos q (by simp [hw, hq])
            have hih := ih { vm := vm2, work := if a + len < b then (a + len, b) :: rest else rest,
                             out := st.out ++ [piece] } (some nv) cur2
              (hk.mono hg12) (hi.mono hg12) (fun v hv => by simp at hv; subst hv; exact hnv.mono hg2) hcur2
              (by simp) hcw hpw hin2
            have hposw : positions ((a, b) :: rest) =
                List.range' a len ++ positions (if a + len < b then (a + len, b) :: rest else rest) := by
              rw [positions_cons]
              simp only
              rw [range'_split a (b - a) len (by omega), List.append_assoc]
              congr 1
              split
              · rw [positions_cons]; congr 2; omega
              · have : b - a - len = 0 := by omega
                rw [this]; simp
            have hpiece : vm2.read piece = (List.range' a len).map fun x =>
                ((ksBlock aes k i rec.nonce ((x - pos) / 16))[(x - pos) % 16]?).getD 0 := by
              rw [hpr.2]
              refine drop_take_eq_map _ _ _ _ ?_
              intro j hj
              have e1 : (a + j - pos) / 16 = (a - pos) / 16 := by omega
              have e2 : (a + j - pos) % 16 = (a - pos) % 16 + j := by omega
              rw [e1, e2, List.getElem?_eq_getElem (by simp; omega)]
              rfl
            revert hih
            cases hr : recordLoop aes key iv rec pos fuel { vm := vm2, work := if a + len < b then (a + len, b) :: rest else rest, out := st.out ++ [piece] } (some nv) cur2 with
            | err e => exact fun h => h
            | panic =>
              simp only
              intro h
              refine Nat.lt_of_lt_of_le (Nat.succ_lt_succ h) ?_
              simp only [ksFuel]
              split
              · simp only [List.map_cons, List.sum_cons]; omega
              · simp only [List.map_cons, List.sum_cons]; omega
            | ok res =>
              obtain ⟨st', done⟩ := res
              simp only
              rintro ⟨i1, i2, i3, i4, i5, front, i6, i7, i8⟩
              refine ⟨hg12.trans i1, i2, i3, i4, i5, List.range' a len ++ front, ?_, ?_, ?_⟩
              · rw [hposw, i6, List.append_assoc]
              · intro x hx
                rcases List.mem_append.1 hx with hx | hx
                · simp [List.mem_range'_1] at hx; omega
                · exact i7 x hx
              · rw [i8, readAll_append, readAll_mono hg12 hin]
                simp only [List.map_append, List.append_assoc]
                congr 2
                simp only [readAll, List.flatMap_cons, List.flatMap_nil, List.append_nil]
                exact hpiece
        · rw [h1]; exact ⟨rfl, h8⟩

theorem ksAt_isSome (aes : AesFn) (k i : Bytes) (recs : List RecordParams) (x : Nat) :
    (ksAt aes k i recs x).isSome ↔ x < (recs.map (·.len)).sum := by
  induction recs generalizing x with
  | nil => simp [ksAt]
  | cons r t ih =>
    simp only [ksAt, List.map_cons, List.sum_cons]
    split
    · rw [List.getElem?_eq_getElem (by simp; omega)]; simp; omega
    · rw [ih]; omega

theorem keystreamLoop_spec (aes : AesFn) {key iv : VmVec} {k i : Bytes} (recs : List RecordParams) (pos : Nat)
    (st : KsState) (hk : Holds st.vm key k) (hi : Holds st.vm iv i) (hcanon : Canon st.work)
    (hpos : ∀ r ∈ st.work, pos ≤ r.1) (hin : InMem st.vm st.out) :
    match keystreamLoop aes key iv pos recs st with
    | .ok st' => Grew st.vm st'.vm ∧ InMem st'.vm st'.out ∧
        (∀ x ∈ positions st.work, (ksAt aes k i recs (x - pos)).isSome) ∧
        readAll st'.vm st'.out = readAll st.vm st.out ++
          (positions st.work).map fun x => (ksAt aes k i recs (x - pos)).getD 0
    | .err e => (e = .vm ∧ ∃ r ∈ recs, r.nonce.length ≠ 8) ∨
        (e = .outOfBounds ∧ (recs = [] ∨ ∃ x ∈ positions st.work, pos + (recs.map (·.len)).sum ≤ x))
    | .panic => False := by
  induction recs generalizing pos st with
  | nil => simp [keystreamLoop]
  | cons rec recs ih =>
    simp only [keystreamLoop]
    have h := recordLoop_spec aes rec pos (ksFuel st.work) st none none hk hi (by simp)
      (fun n b hb => by simp at hb) (fun _ => rfl) hcanon hpos hin
    revert h
    cases recordLoop aes key iv rec pos (ksFuel st.work) st none none with
    | err e => rintro ⟨rfl, h⟩; exact .inl ⟨rfl, rec, by simp, h⟩
    | panic => simp
    | ok res =>
      obtain ⟨st', done⟩ := res
      simp only
      rintro ⟨h1, h2, h3, h4, h5, front, h6, h7, h8⟩
      have hfront : ∀ x ∈ front, ksAt aes k i (rec :: recs) (x - pos) =
          (ksBlock aes k i rec.nonce ((x - pos) / 16))[(x - pos) % 16]? := by
        intro x hx
        have := h7 x hx
        simp only [ksAt]
        rw [if_pos (by omega)]
      have hfs : ∀ x ∈ front, (ksAt aes k i (rec :: recs) (x - pos)).isSome := by
        intro x hx
        rw [hfront x hx, List.getElem?_eq_getElem (by simp; omega)]; rfl
      have hfm : front.map (fun x => (ksAt aes k i (rec :: recs) (x - pos)).getD 0) =
          front.map fun x => ((ksBlock aes k i rec.nonce ((x - pos) / 16))[(x - pos) % 16]?).getD 0 := by
        refine List.map_congr_left fun x hx => ?_
        rw [hfront x hx]
      cases done with
      | true =>
        have h9 := h5.1 rfl
        rw [h9] at h6
        simp only [positions_nil, List.append_nil] at h6
        refine ⟨h1, h2, ?_, ?_⟩
        · rw [h6]; exact hfs
        · rw [h6, hfm, h8]
      | false =>
        have hi' := ih (pos + rec.len) st' (hk.mono h1) (hi.mono h1) h3 h4 h2
        have hrest : ∀ x ∈ positions st'.work, pos + rec.len ≤ x := by
          intro x hx
          simp only [positions, List.mem_flatMap, List.mem_range'_1] at hx
          obtain ⟨r, hr, hx⟩ := hx
          have := h4 r hr; omega
        have hks : ∀ x ∈ positions st'.work,
            ksAt aes k i (rec :: recs) (x - pos) = ksAt aes k i recs (x - (pos + rec.len)) := by
          intro x hx
          have := hrest x hx
          simp only [ksAt]
          rw [if_neg (by omega)]
          congr 1; omega
        simp only
        revert hi'
        cases keystreamLoop aes key iv (pos + rec.len) recs st' with
        | panic => exact fun h => h
        | err e =>
          simp only
          rintro (⟨rfl, r, hr, h9⟩ | ⟨rfl, h9⟩)
          · exact .inl ⟨rfl, r, by simp [hr], h9⟩
          · refine .inr ⟨rfl, .inr ?_⟩
            rcases h9 with rfl | ⟨x, hx, h9⟩
            · cases hw : st'.work with
              | nil => have := h5.2 hw; simp at this
              | cons r t =>
                have hr := h3.nonempty r (by simp [hw])
                have hx : r.1 ∈ positions st'.work := by
                  rw [hw, positions_cons]; simp [List.mem_range'_1]; left; omega
                refine ⟨r.1, by rw [h6]; exact List.mem_append_right _ hx, ?_⟩
                have := hrest _ hx
                simpa using this
            · refine ⟨x, by rw [h6]; exact List.mem_append_right _ hx, ?_⟩
              simp only [List.map_cons, List.sum_cons]; omega
        | ok st2 =>
          simp only
          rintro ⟨i1, i2, i3, i4⟩
          refine ⟨h1.trans i1, i2, ?_, ?_⟩
          · intro x hx
            rw [h6] at hx
            rcases List.mem_append.1 hx with hx | hx
            · exact hfs x hx
            · rw [hks x hx]; exact i3 x hx
          · rw [i4, h8, h6, List.map_append, hfm, List.append_assoc]
            congr 2
            refine List.map_congr_left fun x hx => ?_
            rw [hks x hx]

end Tlsn
