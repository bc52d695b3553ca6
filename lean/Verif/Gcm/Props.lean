import Verif.Gcm.Spec
import Verif.Gcm.PairRun
import Verif.RecordLayer.Nonces

/-! # C102–C105: AES-GCM over the machine -/

namespace Tlsn.Gcm

theorem fresh_inUse {vm : Vm} {key : Ref} (iv : Ref) (hk : key.len = 16) (hr : InRange vm key) : KeyInUse (fresh key iv) vm key :=
  ⟨⟨key, rfl⟩, (fun _ h => nomatch h), fun _ => rfl, hk, hr⟩

theorem ctrBlocks_keystream (aes : AesFn) (K IV nonce : Bytes) (len : Nat) :
    (ctrBlocks aes K IV nonce 2 (divCeil16 len)).flatten.take len = (ctrMode aes K IV).keystream nonce len := by
  simp only [AeadFn.keystream, ctrMode, ctrBlocks, List.flatMap_def]

theorem TagsOk.values {A : AesCircuits} {f : Nat → Option Byte} {role : Role} {vm : Vm} {key iv : Ref} {K IV : Bytes} {ns : List Bytes}
    {js : List (CtrBlock × Share)} (h : TagsOk role key iv vm ns js) (hK : vm.value A f key = some K) (hIV : vm.value A f iv = some IV)
    (hf : Inputs vm f) : js.map (fun j => vm.value A f j.1.output) = ns.map fun n => some ((ctrMode A.aes K IV).block n 1).toList := by
  induction ns generalizing js with
  | nil => cases js with | nil => rfl | cons j js => exact h.elim
  | cons n ns ih =>
    cases js with
    | nil => exact h.elim
    | cons j js =>
      simp only [List.map_cons, ih h.2]
      rw [h.1.value hK hIV hf]; rfl

theorem OutOk.means {A : AesCircuits} {f : Nat → Option Byte} {role : Role} {vm : Vm} {key iv : Ref} {K IV : Bytes} {op : GcmOp} {out : GcmOut}
    (h : OutOk role key iv vm op out) (hK : vm.value A f key = some K) (hIV : vm.value A f iv = some IV) (hf : Inputs vm f)
    (hpad : role ≠ .leader → ∀ a, ∃ b, f a = some b) : OutMeans A f vm (ctrMode A.aes K IV) op out := by
  cases op <;> cases out <;> first
    | exact h.elim
    | trivial
    | skip
  · refine ⟨?_, ?_, fun P hP => ?_⟩
    · obtain ⟨_, _, _, _, _, _, _, rfl, _, _, _⟩ := h; rfl
    · obtain ⟨_, _, _, _, _, _, _, _, rfl, _, _⟩ := h; rfl
    · rw [Applied.value h hK hIV hf (fun hr a _ _ => hpad hr a) hP, ctrBlocks_keystream]
  · refine ⟨?_, ?_⟩
    · obtain ⟨_, _, _, _, _, _, rfl⟩ := h; rfl
    · rw [Taken.value h hK hIV hf, ctrBlocks_keystream]
  · exact TagsOk.values h hK hIV hf

theorem Inputs.later {a b : Vm} {f : Nat → Option Byte} (h : Later a b) (hf : Inputs b f) : Inputs a f :=
  fun x y e => hf x y (h.assigned x y e)

theorem alloc_ok {role : Role} {otp : Bytes} {otps : Nat → Bytes} (ho : otp.length = 16) (hot : ∀ n, (otps n).length = 16) {key iv : Ref}
    {vm : Vm} (hs : Sound vm) (hk : key.len = 16) (hkr : InRange vm key) (hi : iv.len = 4) (hir : InRange vm iv) (records len : Nat) :
    ∃ c' vm' g, Gcm.alloc role otp otps (fresh key iv) vm records len = .ok (c', vm', g) ∧ Alloced role vm vm' key iv g records len := by
  obtain ⟨c', vm', g, h1, h2, -⟩ := alloc_spec (role := role) ho hot (fresh key iv) vm hs (fresh_inUse iv hk hkr) rfl rfl hi hir records len
  exact ⟨c', vm', g, h1, h2⟩

/-- C102: AES-GCM is set up on a machine in which the key and the implicit nonce are allocated, with any amount of
resources, and used in any way, also with calls on the machine by others.  The set-up succeeds, no call panics, and
whatever the calls returned, if the machine is executed with any inputs that include those that were assigned, then
all results are what AES in counter mode gives for the key and the implicit nonce that the machine holds, and the
GHASH key is the encryption of zero.  For the follower all inputs are to be there; the leader assigns the padding. -/
theorem C102_aes_gcm_computes {role : Role} {otp : Bytes} {otps : Nat → Bytes} (ho : otp.length = 16) (hot : ∀ n, (otps n).length = 16)
    {key iv : Ref} {vm : Vm} (hs : Sound vm) (hk : key.len = 16) (hkr : InRange vm key) (hi : iv.len = 4) (hir : InRange vm iv)
    (records len : Nat) (ops : List GcmOp) :
    ∃ c' vm' g, Gcm.alloc role otp otps (fresh key iv) vm records len = .ok (c', vm', g) ∧
      (runGcm role ops g vm').2.2.length = ops.length ∧
      .panic ∉ (runGcm role ops g vm').2.2 ∧
      ∀ (A : AesCircuits) (f : Nat → Option Byte) (K IV : Bytes), Inputs (runGcm role ops g vm').2.1 f →
        (role = .follower → ∀ a, (f a).isSome) →
        (runGcm role ops g vm').2.1.value A f key = some K → (runGcm role ops g vm').2.1.value A f iv = some IV →
        (runGcm role ops g vm').2.1.value A f g.ghashKey = some (A.aes K (List.replicate 16 0)).toList ∧
        ∀ p ∈ ops.zip (runGcm role ops g vm').2.2, OutMeans A f (runGcm role ops g vm').2.1 (ctrMode A.aes K IV) p.1 p.2 := by
  obtain ⟨c', vm', g, h1, h2⟩ := alloc_ok (role := role) ho hot hs hk hkr hi hir records len
  obtain ⟨r1, r2, r3, r4⟩ := runGcm_ok ops h2.ok
  refine ⟨c', vm', g, h1, r3, fun hp => ?_, fun A f K IV hf hall hK hIV => ⟨(h2.hkey.later r1).value hf hK, fun p hp => ?_⟩⟩
  · obtain ⟨i, hi, he⟩ := List.mem_iff_getElem.1 hp
    have := r4 (ops[i]'(by omega), (runGcm role ops g vm').2.2[i]) (by
      rw [List.mem_iff_getElem]
      exact ⟨i, by simp; omega, by simp⟩)
    rw [he] at this
    revert this
    cases ops[i]'(by omega) <;> exact id
  · exact (r4 p hp).means hK hIV hf fun hr a => Option.isSome_iff_exists.1 (hall (by cases role; exact (hr rfl).elim; rfl) a)

/-- C102: the keystream by itself, as other users of the cipher have it: allocated, a part taken off, applied to any
input and assigned with any nonce and first counter, with anything in between. -/
theorem C102_keystream_computes {key iv : Ref} {vm vm1 vm2 vm3 vm4 vm5 vm6 : Vm} {c c' : Aes128} {ks rest mine : List CtrBlock}
    {len n ctr : Nat} {nonce : Bytes} {input out : Ref} (hc : KeyInUse c vm key) (hiv : c.iv = some iv) (hi : iv.len = 4) (hir : InRange vm iv)
    (h1 : c.allocKeystream vm len = .ok (c', vm1, ks)) (h2 : consume ks n = .ok (rest, mine))
    (h12 : Later vm1 vm2) (hin : InRange vm2 input) (h3 : apply mine vm2 input = .ok (vm3, out))
    (h34 : Later vm3 vm4) (h4 : assignKs nonce mine ctr vm4 = (vm5, true)) (h56 : Later vm5 vm6)
    (A : AesCircuits) (f : Nat → Option Byte) (K IV P : Bytes) (hf : Inputs vm6 f) (hK : vm6.value A f key = some K)
    (hIV : vm6.value A f iv = some IV) (hP : vm6.value A f input = some P) :
    ks.length = divCeil16 len ∧ input.len = 16 * divCeil16 n ∧ vm6.value A f out =
      some (xorBytes P ((List.range (divCeil16 n)).flatMap fun i => ((ctrMode A.aes K IV).block nonce (ctr + i)).toList)) := by
  obtain ⟨k₀, h₀⟩ := hc.set
  obtain ⟨c1, w, bs, a1, a2, a3, -⟩ := allocKeystream_spec hc h₀ hiv hi hir len
  rw [h1] at a1
  cases a1
  obtain ⟨b1, b2⟩ := consume_ok h2
  obtain ⟨d1, d2⟩ := apply_inv h3
  have ho : ∀ b ∈ mine, CtrOk vm1.nodes key iv b := fun b hb => a3.ok b (by rw [← b2]; simp [hb])
  obtain ⟨w, o, e1, e2, e3⟩ := apply_spec hin (fun b hb => (ho b hb).later h12) d1 d2
  rw [h3] at e1
  cases e1
  have l46 : Later vm4 vm6 := Later.trans (by have := (assignKs_later nonce mine ctr vm4).1; rw [h4] at this; exact this) h56
  have l36 := h34.trans l46
  have := (e3.later l36).value hK hIV hf (fun b hb => ((ho b hb).later h12).later (e2.later.trans l36)) ((assignKs_holds h4).later h56) hP
  refine ⟨a2, by rw [d1, b1], ?_⟩
  rw [this, b1]
  simp only [ctrBlocks, ctrMode, List.flatMap_def]

/-! ## C103: the resources, and both parties -/

/-- All allocation numbers are below `n`. -/
def Below (n : Nat) (a : Aead) : Prop := (∀ i ∈ a.free, i < n) ∧ ∀ x ∈ a.assigned, x.1 < n

theorem assigns_below {a b : Aead} {ns : List Bytes} {P : Nat → Prop} (h : Assigns a b ns P) {n : Nat} (hb : Below n a) : Below n b := by
  obtain ⟨new, e1, -, -, e4⟩ := h.ex
  refine ⟨fun i hi => hb.1 i (e4.subset (List.mem_append_right _ hi)), fun x hx => ?_⟩
  rw [e1] at hx
  rcases List.mem_append.1 hx with hx | hx
  · exact hb.2 x hx
  · exact hb.1 _ (e4.subset (List.mem_append_left _ (List.mem_map_of_mem hx)))

theorem takeJ0_below {a : Aead} {n : Nat} (hb : Below n a) (nonce : Bytes) : Below n (a.takeJ0 nonce).1 := by
  simp only [Aead.takeJ0]
  split
  · exact hb
  · split
    · exact hb
    · rename_i id hid
      have hmem : id ∈ a.j0s := List.mem_of_getLast? hid
      refine ⟨fun i hi => hb.1 i ?_, fun x hx => ?_⟩
      · simp only [Aead.free, List.mem_append] at hi ⊢
        exact hi.imp_right (List.dropLast_subset _ ·)
      · rcases List.mem_append.1 hx with hx | hx
        · exact hb.2 x hx
        · obtain rfl := List.mem_singleton.1 hx
          exact hb.1 id (by simp [Aead.free, hmem])

theorem takeJ0s_below (ns : List Bytes) {a : Aead} {n : Nat} (hb : Below n a) : Below n (a.takeJ0s ns).1 := by
  induction ns generalizing a with
  | nil => exact hb
  | cons m ns ih =>
    have h1 := takeJ0_below hb m
    simp only [Aead.takeJ0s]
    split
    · rename_i a1 e; rw [e] at h1; exact ih h1
    · rename_i a1 e' e; rw [e] at h1; exact h1

theorem absRun_below {a : Aead} {n : Nat} (hb : Below n a) (op : GcmOp) : Below n (absRun a op).1 := by
  cases op with
  | apply m len => exact assigns_below (applyKeystream_assigns a m len) hb
  | take m len => exact assigns_below (takeKeystream_assigns a m len) hb
  | tags ns =>
    simp only [absRun, Aead.tags]
    split
    · exact hb
    · exact takeJ0s_below ns hb
  | vmAlloc => exact hb
  | vmCall => exact hb
  | vmAssign => exact hb

theorem absRunAll_below (ops : List GcmOp) {a : Aead} {n : Nat} (hb : Below n a) : Below n (absRunAll ops a).1 := by
  induction ops generalizing a with
  | nil => exact hb
  | cons op ops ih => exact ih (absRun_below hb op)

theorem alloc_below (records len : Nat) : Below (records + divCeil16 len) (Aead.alloc records len) := by
  refine ⟨fun i hi => ?_, fun _ h => nomatch h⟩
  simp only [Aead.free, Aead.alloc, List.mem_append, List.mem_map, List.mem_range] at hi
  omega

theorem named_ok {role : Role} {vm vm' : Vm} {key iv : Ref} {g : Gcm} {records len : Nat} (h : Alloced role vm vm' key iv g records len)
    {i : Nat} (hi : i < records + divCeil16 len) : CtrOk vm'.nodes key iv (blockNamed g i) := by
  have hl : i < (g.j0s.map (·.1) ++ g.keystream).length := by simp only [List.length_append, List.length_map, h.tags, h.blocks]; exact hi
  have hm : blockNamed g i ∈ g.j0s.map (·.1) ++ g.keystream := by
    simp only [blockNamed, List.getD_eq_getElem?_getD, List.getElem?_eq_getElem hl, Option.getD_some]
    exact List.getElem_mem hl
  rcases List.mem_append.1 hm with hm | hm
  · obtain ⟨j, hj, e⟩ := List.mem_map.1 hm
    rw [← e]; exact (h.ok.j0s j hj).1
  · exact h.ok.keystream _ hm

/-- C103: a call succeeds if and only if the model of the record layer says so, which counts nothing but resources, and
the blocks then hold the nonces and counters that the model of the record layer records: as long as nobody else assigns
the parts of the memory that AES-GCM keeps, and lengths are those of memory. -/
theorem C103_resources {role : Role} {otp : Bytes} {otps : Nat → Bytes} (ho : otp.length = 16) (hot : ∀ n, (otps n).length = 16)
    {key iv : Ref} {vm : Vm} (hs : Sound vm) (hk : key.len = 16) (hkr : InRange vm key) (hi : iv.len = 4) (hir : InRange vm iv)
    (records len : Nat) :
    ∃ c' vm' g, Gcm.alloc role otp otps (fresh key iv) vm records len = .ok (c', vm', g) ∧
      ∀ ops, Careful role ops g vm' →
        (absRunAll ops (Aead.alloc records len)).2.length = ops.length ∧
        (∀ p ∈ (runGcm role ops g vm').2.2.zip (absRunAll ops (Aead.alloc records len)).2, OutAgrees p.1 p.2) ∧
        (runGcm role ops g vm').1.keystream.length = (absRunAll ops (Aead.alloc records len)).1.keystream.blocks.length ∧
        (runGcm role ops g vm').1.j0s.length = (absRunAll ops (Aead.alloc records len)).1.j0s.length ∧
        (runGcm role ops g vm').1.input.len = (absRunAll ops (Aead.alloc records len)).1.input ∧
        ∀ x ∈ (absRunAll ops (Aead.alloc records len)).1.assigned, ∀ A f, Inputs (runGcm role ops g vm').2.1 f →
          (runGcm role ops g vm').2.1.value A f (blockNamed g x.1).nonce = some x.2.1 ∧
          (runGcm role ops g vm').2.1.value A f (blockNamed g x.1).counter = some (beBytes 4 x.2.2) ∧
          ∀ K IV, (runGcm role ops g vm').2.1.value A f key = some K → (runGcm role ops g vm').2.1.value A f iv = some IV →
            (runGcm role ops g vm').2.1.value A f (blockNamed g x.1).output = some ((ctrMode A.aes K IV).block x.2.1 x.2.2).toList := by
  obtain ⟨c', vm', g, h1, h2⟩ := alloc_ok (role := role) ho hot hs hk hkr hi hir records len
  refine ⟨c', vm', g, h1, fun ops hc => ?_⟩
  obtain ⟨i1, i2, i3⟩ := runGcm_refines ops (alloc_abs h2) hc
  refine ⟨i2, i3, by rw [i1.abs.keystream, List.length_map], ?_, i1.abs.input.symm, fun x hx A f hf => ?_⟩
  · have := congrArg List.length i1.abs.j0s
    simpa using this
  · obtain ⟨a1, a2⟩ := i1.abs.assigned x hx
    have hb := (absRunAll_below ops (alloc_below records len)).2 x hx
    have hc := (named_ok h2 hb).later (runGcm_ok ops h2.ok).1
    have v1 := a1.value (A := A) hc.nonce hf
    have v2 := a2.value (A := A) hc.counter hf
    exact ⟨v1, v2, fun K IV hK hIV => hc.value hK hIV v1 v2⟩

theorem OutMeans.same {A : AesCircuits} {f : Nat → Option Byte} {x y : Vm} {F : AeadFn} {op op' : GcmOp} {o o' : GcmOut}
    (hval : ∀ r, y.value A f r = x.value A f r) (hop : SameOp op op') (ho : SameOut o o') (h : OutMeans A f x F op o) :
    OutMeans A f y F op' o' := by
  cases op <;> cases op' <;> (try exact hop.elim) <;> cases o <;> cases o' <;> (try exact ho.elim) <;> (try exact h.elim) <;>
    (try trivial)
  · obtain ⟨rfl, rfl⟩ := hop
    obtain ⟨rfl, rfl⟩ := ho
    simp only [OutMeans, hval] at h ⊢; exact h
  · obtain ⟨rfl, rfl⟩ := hop
    obtain rfl : _ = _ := ho
    simp only [OutMeans, hval] at h ⊢; exact h
  · obtain rfl : _ = _ := hop
    simp only [OutMeans, hval] at h ⊢
    rw [← h]
    have := congrArg (List.map fun b => x.value A f b.output) (SameJ0s.fst ho)
    rw [List.map_map, List.map_map] at this
    exact this.symm

theorem outMeans_all {A : AesCircuits} {f : Nat → Option Byte} {x y : Vm} {F : AeadFn} (hval : ∀ r, y.value A f r = x.value A f r)
    {ops ops' : List GcmOp} {os os' : List GcmOut} (hop : SameOps ops ops') (ho : SameOuts os os')
    (h : ∀ p ∈ ops.zip os, OutMeans A f x F p.1 p.2) : ∀ p ∈ ops'.zip os', OutMeans A f y F p.1 p.2 := by
  induction ops generalizing ops' os os' with
  | nil => cases ops' with | nil => exact fun _ h => nomatch h | cons => exact hop.elim
  | cons op ops ih =>
    cases ops' with
    | nil => exact hop.elim
    | cons op' ops' =>
      cases os <;> cases os' <;> first
        | exact ho.elim
        | (intro p hp; simp at hp; done)
        | skip
      intro p hp
      simp only [List.zip_cons_cons] at h hp
      rcases List.mem_cons.1 hp with rfl | hp
      · exact (h _ (List.mem_cons_self ..)).same hval hop.1 ho.1
      · exact ih hop.2 ho.2 (fun q hq => h q (List.mem_cons_of_mem _ hq)) p hp

/-- C103: both parties set AES-GCM up on machines with the same memory, and then use it in step: the same calls, and
the same allocations and calls on the machine, while each assigns what it likes.  Then both have built the same
graph, they have the same results up to their pads, and what the follower's results hold follows without any condition
on its inputs. -/
theorem C103_both_parties {otp otp' : Bytes} {otps otps' : Nat → Bytes} (ho : otp.length = 16) (hot : ∀ n, (otps n).length = 16)
    (ho' : otp'.length = 16) (hot' : ∀ n, (otps' n).length = 16) {key iv : Ref} {v w : Vm} (hvw : v.nodes = w.nodes) (hs : Sound v)
    (hs' : Sound w) (hk : key.len = 16) (hkr : InRange v key) (hi : iv.len = 4) (hir : InRange v iv) (records len : Nat) :
    ∃ cl vl gl cf vf gf, Gcm.alloc .leader otp otps (fresh key iv) v records len = .ok (cl, vl, gl) ∧
      Gcm.alloc .follower otp' otps' (fresh key iv) w records len = .ok (cf, vf, gf) ∧ cl = cf ∧
      ∀ ops ops', SameOps ops ops' → Careful .leader ops gl vl → Careful .follower ops' gf vf →
        (runGcm .leader ops gl vl).2.1.nodes = (runGcm .follower ops' gf vf).2.1.nodes ∧
        SameOuts (runGcm .leader ops gl vl).2.2 (runGcm .follower ops' gf vf).2.2 ∧
        ∀ (A : AesCircuits) (f : Nat → Option Byte) (K IV : Bytes), Inputs (runGcm .leader ops gl vl).2.1 f →
          (runGcm .leader ops gl vl).2.1.value A f key = some K → (runGcm .leader ops gl vl).2.1.value A f iv = some IV →
          (∀ p ∈ ops.zip (runGcm .leader ops gl vl).2.2, OutMeans A f (runGcm .leader ops gl vl).2.1 (ctrMode A.aes K IV) p.1 p.2) ∧
          ∀ p ∈ ops'.zip (runGcm .follower ops' gf vf).2.2, OutMeans A f (runGcm .follower ops' gf vf).2.1 (ctrMode A.aes K IV) p.1 p.2 := by
  have hkr' : InRange w key := by simp only [InRange] at hkr ⊢; rw [← hvw]; exact hkr
  have hir' : InRange w iv := by simp only [InRange] at hir ⊢; rw [← hvw]; exact hir
  obtain ⟨cl, vl, gl, h1, h2⟩ := alloc_ok (role := .leader) ho hot hs hk hkr hi hir records len
  obtain ⟨cf, vf, gf, h3, h4⟩ := alloc_ok (role := .follower) ho' hot' hs' hk hkr' hi hir' records len
  obtain ⟨p1, p2⟩ := alloc_pair ho ho' hot hot' (fresh key iv) v w hvw hs hs' (fresh_inUse iv hk hkr) (fresh_inUse iv hk hkr') rfl rfl hi hir
    records len h1 h3
  refine ⟨cl, vl, gl, cf, vf, gf, h1, h3, p2, fun ops ops' hso hc hc' => ?_⟩
  obtain ⟨q1, q2⟩ := runGcm_pair ops p1 (alloc_abs h2) (alloc_abs h4) hso hc hc'
  refine ⟨q1.nodes, q2, fun A f K IV hf hK hIV => ?_⟩
  have hlead := fun p hp => ((runGcm_ok ops h2.ok).2.2.2 p hp).means (A := A) hK hIV hf (fun h => (h rfl).elim)
  exact ⟨hlead, outMeans_all (fun r => by simp only [Vm.value, q1.nodes]) hso q2 hlead⟩

/-! ## C104: shares -/

theorem sharesAdd {A : AesCircuits} {f : Nat → Option Byte} {vl vf : Vm} {key iv : Ref} {K IV : Bytes} (hn : vf.nodes = vl.nodes)
    (il : Inputs vl f) (iF : Inputs vf f) (hK : vl.value A f key = some K) (hIV : vl.value A f iv = some IV) {ns : List Bytes}
    {jl jf : List (CtrBlock × Share)} (hl : TagsOk .leader key iv vl ns jl) (hf : TagsOk .follower key iv vf ns jf) (hs : SameJ0s jl jf) :
    SharesAdd A f vl vf (ctrMode A.aes K IV) ns jl jf := by
  induction ns generalizing jl jf with
  | nil => cases jl <;> cases jf <;> trivial
  | cons n ns ih =>
    cases jl <;> cases jf <;> first
      | exact hl.elim
      | exact hf.elim
      | skip
    rename_i l ls r rs
    simp only [SameJ0s, List.map_cons, List.cons.injEq, Prod.mk.injEq] at hs
    obtain ⟨⟨e1, e2⟩, e3⟩ := hs
    refine ⟨?_, ih hl.2 hf.2 e3⟩
    have hfs := hf.1.share
    rw [← e1] at hfs
    obtain ⟨d, d1, d2, -, -, -, d6⟩ := shares_value hn hl.1.share hfs e2.symm il iF (hl.1.value hK hIV il)
    exact ⟨d, d1, d2, d6⟩

theorem allSharesAdd {A : AesCircuits} {f : Nat → Option Byte} {vl vf : Vm} {key iv : Ref} {K IV : Bytes} (hn : vf.nodes = vl.nodes)
    (il : Inputs vl f) (iF : Inputs vf f) (hK : vl.value A f key = some K) (hIV : vl.value A f iv = some IV) {ops ops' : List GcmOp}
    {os os' : List GcmOut} (hll : os.length = ops.length) (hfl : os'.length = ops'.length)
    (hl : ∀ p ∈ ops.zip os, OutOk .leader key iv vl p.1 p.2) (hf : ∀ p ∈ ops'.zip os', OutOk .follower key iv vf p.1 p.2)
    (hop : SameOps ops ops') (ho : SameOuts os os') : AllSharesAdd A f vl vf (ctrMode A.aes K IV) ops os os' := by
  induction ops generalizing ops' os os' with
  | nil =>
    cases ops' <;> cases os <;> cases os' <;> trivial
  | cons op ops ih =>
    cases ops' <;> cases os <;> cases os' <;> first
      | exact hop.elim
      | (simp at hll; done)
      | (simp at hfl; done)
      | skip
    rename_i op' ops' o os o' os'
    simp only [List.zip_cons_cons, List.length_cons, Nat.add_right_cancel_iff] at hll hfl hl hf
    refine ⟨?_, ih hll hfl (fun q hq => hl q (List.mem_cons_of_mem _ hq)) (fun q hq => hf q (List.mem_cons_of_mem _ hq)) hop.2 ho.2⟩
    rintro ns jl jf rfl rfl rfl
    have a1 := hl _ (List.mem_cons_self ..)
    have a2 := hf _ (List.mem_cons_self ..)
    have h1 := hop.1
    cases op' <;> try exact h1.elim
    obtain rfl : _ = _ := h1
    exact sharesAdd hn il iF hK hIV a1 a2 ho.1

/-- C104: the parties do as in C103.  Whatever both have assigned, of every tag and of the GHASH key both can decode the
same value, and what the leader and the follower make of it adds up to the first block of the nonce, and to the GHASH
key.  The leader's share is its own pad; the follower's is the secret with the leader's pad. -/
theorem C104_shares_add_up {otp otp' : Bytes} {otps otps' : Nat → Bytes} (ho : otp.length = 16) (hot : ∀ n, (otps n).length = 16)
    (ho' : otp'.length = 16) (hot' : ∀ n, (otps' n).length = 16) {key iv : Ref} {v w : Vm} (hvw : v.nodes = w.nodes) (hs : Sound v)
    (hs' : Sound w) (hk : key.len = 16) (hkr : InRange v key) (hi : iv.len = 4) (hir : InRange v iv) (records len : Nat) :
    ∃ cl vl gl cf vf gf, Gcm.alloc .leader otp otps (fresh key iv) v records len = .ok (cl, vl, gl) ∧
      Gcm.alloc .follower otp' otps' (fresh key iv) w records len = .ok (cf, vf, gf) ∧
      ∀ ops ops', SameOps ops ops' → Careful .leader ops gl vl → Careful .follower ops' gf vf →
        ∀ (A : AesCircuits) (f : Nat → Option Byte) (K IV : Bytes), Inputs (runGcm .leader ops gl vl).2.1 f →
          Inputs (runGcm .follower ops' gf vf).2.1 f →
          (runGcm .leader ops gl vl).2.1.value A f key = some K → (runGcm .leader ops gl vl).2.1.value A f iv = some IV →
          (∃ d, (runGcm .leader ops gl vl).2.1.value A f gl.ghashShare.masked = some d ∧
            (runGcm .follower ops' gf vf).2.1.value A f gf.ghashShare.masked = some d ∧
            gl.ghashShare.resolve .leader d = gl.ghashShare.otp ∧
            gf.ghashShare.resolve .follower d = xorBytes (A.aes K (List.replicate 16 0)).toList gl.ghashShare.otp ∧
            xorBytes (gl.ghashShare.resolve .leader d) (gf.ghashShare.resolve .follower d) = (A.aes K (List.replicate 16 0)).toList) ∧
          AllSharesAdd A f (runGcm .leader ops gl vl).2.1 (runGcm .follower ops' gf vf).2.1 (ctrMode A.aes K IV) ops
            (runGcm .leader ops gl vl).2.2 (runGcm .follower ops' gf vf).2.2 := by
  have hkr' : InRange w key := by simp only [InRange] at hkr ⊢; rw [← hvw]; exact hkr
  have hir' : InRange w iv := by simp only [InRange] at hir ⊢; rw [← hvw]; exact hir
  obtain ⟨cl, vl, gl, h1, h2⟩ := alloc_ok (role := .leader) ho hot hs hk hkr hi hir records len
  obtain ⟨cf, vf, gf, h3, h4⟩ := alloc_ok (role := .follower) ho' hot' hs' hk hkr' hi hir' records len
  obtain ⟨p1, p2⟩ := alloc_pair ho ho' hot hot' (fresh key iv) v w hvw hs hs' (fresh_inUse iv hk hkr) (fresh_inUse iv hk hkr') rfl rfl hi hir
    records len h1 h3
  refine ⟨cl, vl, gl, cf, vf, gf, h1, h3, fun ops ops' hso hc hc' A f K IV il iF hK hIV => ?_⟩
  obtain ⟨q1, q2⟩ := runGcm_pair ops p1 (alloc_abs h2) (alloc_abs h4) hso hc hc'
  obtain ⟨r1, -, r3, r4⟩ := runGcm_ok ops h2.ok
  obtain ⟨s1, -, s3, s4⟩ := runGcm_ok ops' h4.ok
  refine ⟨?_, allSharesAdd q1.nodes.symm il iF hK hIV r3 s3 r4 s4 hso q2⟩
  have hfs := (h4.hkey.later s1).share
  rw [← p1.key] at hfs
  obtain ⟨d, d1, d2, -, d4, d5, d6⟩ := shares_value q1.nodes.symm (h2.hkey.later r1).share hfs p1.keyShare.symm il iF
    ((h2.hkey.later r1).value il hK)
  exact ⟨d, d1, d2, d4, d5, d6⟩

/-! ## C105: the key of the cipher -/

theorem setKeys_key (keys : List Ref) (c : Aes128) : (keys.foldl Aes128.setKey c).keySchedule = c.keySchedule ∧
    (keys.foldl Aes128.setKey c).iv = c.iv ∧ (keys.foldl Aes128.setKey c).key = (keys.getLast?.or c.key) := by
  induction keys generalizing c with
  | nil => simp
  | cons k keys ih =>
    obtain ⟨h1, h2, h3⟩ := ih (c.setKey k)
    refine ⟨h1, h2, ?_⟩
    rw [List.foldl_cons, h3]
    cases keys with
    | nil => rfl
    | cons a as => simp [List.getLast?_eq_some_getLast]

theorem schedule_some {c c' : Aes128} {vm vm' : Vm} {k ks : Ref} (h : c.schedule vm k = .ok (c', vm', ks)) : c'.keySchedule.isSome := by
  unfold Aes128.schedule at h
  cases hs : c.keySchedule with
  | some x => rw [hs] at h; cases h; rw [hs]; rfl
  | none =>
    rw [hs] at h
    dsimp only at h
    cases hc : callOk (ε := AesError) vm .aesKs [k] with
    | ok r => rw [hc] at h; cases h; rfl
    | err e => rw [hc] at h; cases h
    | panic => rw [hc] at h; cases h

theorem blockCall_some {c c' : Aes128} {vm vm' : Vm} {key iv n k : Ref} {b : CtrBlock} (h : c.blockCall vm key iv n k = .ok (c', vm', b)) :
    c'.keySchedule.isSome := by
  unfold Aes128.blockCall at h
  cases hs : c.schedule vm key with
  | ok r =>
    obtain ⟨c1, v1, ks⟩ := r
    rw [hs] at h
    simp only [bind, Outcome.bind] at h
    cases hc : callOk (ε := AesError) v1 .aesPost [ks, iv, n, k] with
    | ok r => rw [hc] at h; cases h; exact schedule_some hs
    | err e => rw [hc] at h; cases h
    | panic => rw [hc] at h; cases h
  | err e => rw [hs] at h; cases h
  | panic => rw [hs] at h; cases h

theorem blockCalls_some {key iv : Ref} (is : List (Ref × Ref)) {c c' : Aes128} {vm vm' : Vm} {bs : List CtrBlock}
    (h : Aes128.blockCalls key iv c vm is = .ok (c', vm', bs)) (hn : is ≠ [] ∨ c.keySchedule.isSome) : c'.keySchedule.isSome := by
  induction is generalizing c vm bs with
  | nil => cases h; exact hn.elim (fun h => (h rfl).elim) id
  | cons i is ih =>
    simp only [Aes128.blockCalls] at h
    cases hs : c.blockCall vm key iv i.1 i.2 with
    | ok r =>
      obtain ⟨c1, v1, b⟩ := r
      rw [hs] at h
      simp only [bind, Outcome.bind] at h
      cases hc : Aes128.blockCalls key iv c1 v1 is with
      | ok r => rw [hc] at h; cases h; exact ih hc (.inr (blockCall_some hs))
      | err e => rw [hc] at h; cases h
      | panic => rw [hc] at h; cases h
    | err e => rw [hs] at h; cases h
    | panic => rw [hs] at h; cases h

/-- C105: before anything is allocated, the last key that was set is the one that is used. -/
theorem C105_last_key_before_partial {key iv : Ref} {vm vm1 vm2 vm3 : Vm} {c' : Aes128} {ks : List CtrBlock} {len ctr : Nat} {nonce : Bytes}
    (keys : List Ref) (hk : key.len = 16) (hkr : InRange vm key) (hi : iv.len = 4) (hir : InRange vm iv)
    (h1 : (((keys.foldl Aes128.setKey {}).setKey key).setIv iv).allocKeystream vm len = .ok (c', vm1, ks)) (h12 : Later vm1 vm2)
    (h2 : assignKs nonce ks ctr vm2 = (vm3, true)) (A : AesCircuits) (f : Nat → Option Byte) (K IV : Bytes) (hf : Inputs vm3 f)
    (hK : vm3.value A f key = some K) (hIV : vm3.value A f iv = some IV) :
    (ks.map (·.output)).mapM (vm3.value A f) =
      some ((List.range (divCeil16 len)).map fun i => ((ctrMode A.aes K IV).block nonce (ctr + i)).toList) := by
  have hc : KeyInUse (((keys.foldl Aes128.setKey {}).setKey key).setIv iv) vm key :=
    ⟨⟨key, rfl⟩, (fun _ h => by
      have h' : (keys.foldl Aes128.setKey {}).keySchedule = some _ := h
      rw [(setKeys_key keys {}).1] at h'; cases h'), fun _ => rfl, hk, hkr⟩
  obtain ⟨c1, w, bs, a1, a2, a3, -⟩ := allocKeystream_spec hc rfl rfl hi hir len
  rw [h1] at a1
  cases a1
  have l13 : Later vm1 vm3 := h12.trans (by have := (assignKs_later nonce ks ctr vm2).1; rw [h2] at this; exact this)
  rw [blocks_value hK hIV hf (fun b hb => (a3.ok b hb).later l13) (assignKs_holds h2), a2]
  rfl

/-- C105 is false of the code: once a block has been allocated, setting other keys has no effect; all blocks that are
allocated later are computed under the first key. -/
theorem C105_later_keys_ignored {key iv : Ref} {vm vm1 vm2 vm3 vm4 vm5 : Vm} {c' c'' : Aes128} {ks ks' : List CtrBlock} {len len' ctr : Nat}
    {nonce : Bytes} (keys : List Ref) (hk : key.len = 16) (hkr : InRange vm key) (hi : iv.len = 4) (hir : InRange vm iv)
    (h1 : (fresh key iv).allocKeystream vm len = .ok (c', vm1, ks)) (hlen : 0 < len) (h12 : Later vm1 vm2)
    (h2 : (keys.foldl Aes128.setKey c').allocKeystream vm2 len' = .ok (c'', vm3, ks')) (h34 : Later vm3 vm4)
    (h4 : assignKs nonce ks' ctr vm4 = (vm5, true)) (A : AesCircuits) (f : Nat → Option Byte) (K IV : Bytes) (hf : Inputs vm5 f)
    (hK : vm5.value A f key = some K) (hIV : vm5.value A f iv = some IV) :
    (ks'.map (·.output)).mapM (vm5.value A f) =
      some ((List.range (divCeil16 len')).map fun i => ((ctrMode A.aes K IV).block nonce (ctr + i)).toList) := by
  have hu := fresh_inUse iv hk hkr
  obtain ⟨c1, w, bs, a1, a2, a3, a4, a5, a6⟩ := allocKeystream_spec hu rfl rfl hi hir len
  rw [h1] at a1
  cases a1
  have hsome : c'.keySchedule.isSome := by
    simp only [fresh, Aes128.setKey, Aes128.setIv, Aes128.allocKeystream] at h1
    refine blockCalls_some _ h1 (.inl fun e => ?_)
    have := (allocInputs_spec (divCeil16 len) vm).2.1
    rw [e] at this
    simp only [List.length_nil, divCeil16] at this
    omega
  obtain ⟨k1, k2, k3⟩ := setKeys_key keys c'
  have hkey : ∃ k, (keys.foldl Aes128.setKey c').key = some k := by
    rw [k3, a5]
    cases keys.getLast? with
    | none => exact ⟨key, rfl⟩
    | some k => exact ⟨k, rfl⟩
  have hu' : KeyInUse (keys.foldl Aes128.setKey c') vm2 key :=
    ⟨hkey, fun x hx => (a4.schedule x (k1 ▸ hx)).later h12, (fun hx => by rw [← k1, hx] at hsome; cases hsome), hk,
      (hkr.later a3.quiet.later).later h12⟩
  obtain ⟨k₀, hk₀⟩ := hkey
  obtain ⟨c2, w', bs', b1, b2, b3, -⟩ := allocKeystream_spec hu' hk₀ (k2.trans a6) hi ((hir.later a3.quiet.later).later h12) len'
  rw [h2] at b1
  cases b1
  have l35 : Later vm3 vm5 := h34.trans (by have := (assignKs_later nonce ks' ctr vm4).1; rw [h4] at this; exact this)
  rw [blocks_value hK hIV hf (fun b hb => (b3.ok b hb).later l35) (assignKs_holds h4), b2]
  rfl

/-! ## Examples -/

/-- A toy for AES: the key schedule repeats the key, the block is the sum of key and block. -/
def toy : AesCircuits := ⟨fun k => .ofFn fun i => k.getD (i % 16) 0, fun s b => .ofFn fun i => s.getD i 0 + b.getD i 0⟩

/-- A machine with two keys and an implicit nonce, all assigned. -/
def toyVm : Vm :=
  { nodes := [.input 16, .input 4, .input 16], marks := [(⟨0, 16⟩, .pub), (⟨16, 4⟩, .pub), (⟨20, 16⟩, .pub)]
    assigned := fun a => if a < 16 then some (3 * UInt8.ofNat a) else if a < 20 then some 9 else if a < 36 then some (UInt8.ofNat a) else none }

def toyKey : Bytes := (List.range 16).map fun i => 3 * UInt8.ofNat i

theorem toySound : Sound toyVm :=
  ⟨fun a ha => by
    have : sizeOf toyVm.nodes = 36 := by decide
    simp only [toyVm]
    rw [if_neg (by omega), if_neg (by omega), if_neg (by omega)], by
    intro m hm
    simp only [toyVm, List.mem_cons, List.not_mem_nil, or_false] at hm
    rcases hm with rfl | rfl | rfl <;> (simp only [InRange]; decide)⟩

def toyNonce : Bytes := [1, 2, 3, 4, 5, 6, 7, 8]

/-- Twenty bytes are applied, five are taken, and there is a tag. -/
def toyOps : List GcmOp := [.apply toyNonce 20, .take toyNonce 5, .tags [toyNonce], .vmAlloc 7 .pub, .apply toyNonce 100, .apply [1] 2]

/-- The inputs: those that were assigned, and elsewhere the number of the address. -/
def toyIn (vm : Vm) (a : Nat) : Option Byte := some ((vm.assigned a).getD (UInt8.ofNat a))

/-- The machine after AES-GCM was set up and used, with the results. -/
def toyRun (role : Role) (otp : Bytes) : Option (Gcm × Gcm × Vm × List GcmOut) :=
  match Gcm.alloc role otp (fun _ => otp) (fresh ⟨0, 16⟩ ⟨16, 4⟩) toyVm 2 48 with
  | .ok (_, vm, g) => let r := runGcm role toyOps g vm; some (g, r)
  | _ => none

example : InRange toyVm ⟨0, 16⟩ ∧ InRange toyVm ⟨16, 4⟩ := by simp only [InRange]; decide

/-- The hypotheses of C102, C103 and C104 are met. -/
example := C102_aes_gcm_computes (role := .follower) (otp := List.replicate 16 7) (otps := fun _ => List.replicate 16 8) rfl (fun _ => rfl)
  (key := ⟨0, 16⟩) (iv := ⟨16, 4⟩) toySound rfl (by simp only [InRange]; decide) rfl (by simp only [InRange]; decide) 2 48 toyOps

/-- The results of C102: three successes, and two errors. -/
example : (toyRun .leader (List.replicate 16 7)).map (fun r => r.2.2.2.map fun o => match o with
    | .applied .. => "applied" | .taken _ => "taken" | .tags _ => "tags" | .none => "none" | .panic => "panic") =
    some ["applied", "taken", "tags", "none", "none", "none"] := by decide +kernel

/-- What they hold. -/
example : (toyRun .leader (List.replicate 16 7)).map (fun r => r.2.2.2.map fun o => match o with
    | .applied i o => (r.2.2.1.value toy (toyIn r.2.2.1) o).bind fun c => (r.2.2.1.value toy (toyIn r.2.2.1) i).map fun p => (p.length, xorBytes p c)
    | .taken o => (r.2.2.1.value toy (toyIn r.2.2.1) o).map fun c => (0, c)
    | _ => none) =
    some [some (20, (ctrMode toy.aes toyKey [9, 9, 9, 9]).keystream toyNonce 20),
      some (0, (ctrMode toy.aes toyKey [9, 9, 9, 9]).keystream toyNonce 5), none, none, none, none] := by decide +kernel

/-- The keystream is not trivial. -/
example : (ctrMode toy.aes toyKey [9, 9, 9, 9]).keystream toyNonce 20 =
    [9, 12, 15, 18, 13, 17, 21, 25, 29, 33, 37, 41, 36, 39, 42, 47, 9, 12, 15, 18] := by decide +kernel

/-- C103: the results agree with the model of the record layer, which has the same errors. -/
example : (absRunAll toyOps (Aead.alloc 2 48)).2 = [some (.ok ()), some (.ok ()), some (.ok ()), none, some (.error .cipher), some (.error .cipher)] := by
  decide +kernel

/-- The operations are careful, and those of both parties are in step. -/
example (role : Role) (g : Gcm) (vm : Vm) : Careful role toyOps g vm ∧ SameOps toyOps toyOps := by
  refine ⟨⟨?_, ?_, ?_, ?_, ?_, ?_, trivial⟩, ⟨⟨rfl, rfl⟩, ⟨rfl, rfl⟩, rfl, rfl, ⟨rfl, rfl⟩, ⟨rfl, rfl⟩, trivial⟩⟩ <;>
    first | exact (by decide : (20 : Nat) + 16 ≤ 2 ^ 64) | exact (by decide : (5 : Nat) + 16 ≤ 2 ^ 64) | exact (by decide : (100 : Nat) + 16 ≤ 2 ^ 64) |
      exact (by decide : (2 : Nat) + 16 ≤ 2 ^ 64) | trivial

/-- C104: the shares of the tag, with different pads. -/
example : (do
    let l ← toyRun .leader (List.replicate 16 7)
    let r ← toyRun .follower (List.replicate 16 200)
    let f := fun a => ((l.2.2.1.assigned a).or (r.2.2.1.assigned a)).or (some 0)
    match l.2.2.2[2]?, r.2.2.2[2]? with
    | some (GcmOut.tags [jl]), some (GcmOut.tags [jf]) =>
      let d ← l.2.2.1.value toy f jl.2.masked
      let d' ← r.2.2.1.value toy f jf.2.masked
      some (decide (d = d'), jl.2.resolve .leader d, xorBytes (jl.2.resolve .leader d) (jf.2.resolve .follower d'))
    | _, _ => none) = some (true, List.replicate 16 7, (toy.aes toyKey ([9, 9, 9, 9] ++ toyNonce ++ [0, 0, 0, 1])).toList) := by decide +kernel

/-- Two blocks, with another key set in between. -/
def toyRekey : Option (Vm × CtrBlock × CtrBlock) :=
  match (fresh ⟨0, 16⟩ ⟨16, 4⟩).allocCtrBlock toyVm with
  | .ok (c, vm, a) =>
    match (c.setKey ⟨20, 16⟩).allocCtrBlock vm with
    | .ok (_, vm, b) => some ((assignKs toyNonce [a, b] 5 vm).1, a, b)
    | _ => none
  | _ => none

theorem toyRekey_some : toyRekey.isSome = true := by decide +kernel

/-- C105 is false of the code: the second block is not computed under the second key. -/
theorem C105_set_key_has_no_effect : ∃ vm a b K₁ K₂, toyRekey = some (vm, a, b) ∧
    vm.value toy (toyIn vm) ⟨0, 16⟩ = some K₁ ∧ vm.value toy (toyIn vm) ⟨20, 16⟩ = some K₂ ∧
    vm.value toy (toyIn vm) b.output = some ((ctrMode toy.aes K₁ [9, 9, 9, 9]).block toyNonce 6).toList ∧
    vm.value toy (toyIn vm) b.output ≠ some ((ctrMode toy.aes K₂ [9, 9, 9, 9]).block toyNonce 6).toList := by
  refine ⟨(toyRekey.get toyRekey_some).1, (toyRekey.get toyRekey_some).2.1, (toyRekey.get toyRekey_some).2.2, toyKey,
    (List.range 16).map fun i => UInt8.ofNat (20 + i), (Option.some_get toyRekey_some).symm, ?_, ?_, ?_, ?_⟩ <;> decide +kernel

end Tlsn.Gcm
