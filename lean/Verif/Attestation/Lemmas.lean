import Verif.Attestation.Spec
import Verif.Merkle.Props

/-! # Lemmas about serialization, bodies and their hashes -/

namespace Tlsn

/-! ## Injectivity of the canonical serialization -/

theorem prefixInj_typedHash : PrefixInj (fun _ => True) TypedHash.bcs :=
  prefixInj_byte.pair prefixInj_bcsBytes TypedHash.alg TypedHash.value (by simp)
    (by rintro ⟨⟩ ⟨⟩ rfl rfl; rfl)

theorem prefixInj_verifyingKey : PrefixInj (fun _ => True) VerifyingKey.bcs :=
  prefixInj_byte.pair prefixInj_bcsBytes VerifyingKey.alg VerifyingKey.data (by simp)
    (by rintro ⟨⟩ ⟨⟩ rfl rfl; rfl)

theorem prefixInj_tlsVersion : PrefixInj (fun _ => True) TlsVersion.bcs := by
  intro x y _ _ r s h
  cases x <;> cases y <;> simp_all [TlsVersion.bcs]

theorem prefixInj_direction : PrefixInj (fun _ => True) Direction.bcs := by
  intro x y _ _ r s h
  cases x <;> cases y <;> simp_all [Direction.bcs]

theorem pow256_8 : 256 ^ 8 = 2 ^ 64 := by decide
theorem pow256_4 : 256 ^ 4 = 2 ^ 32 := by decide

theorem prefixInj_connectionInfo :
    PrefixInj (fun c : ConnectionInfo => c.time < 2 ^ 64 ∧ c.transcriptLength.sent < 2 ^ 32 ∧
      c.transcriptLength.received < 2 ^ 32) ConnectionInfo.bcs := by
  rintro ⟨xt, xv, ⟨xs, xr⟩⟩ ⟨yt, yv, ⟨ys, yr⟩⟩ hx hy r s h
  simp only at hx hy
  rw [← pow256_8, ← pow256_4] at hx hy
  simp only [ConnectionInfo.bcs, List.append_assoc] at h
  obtain ⟨rfl, k1⟩ := prefixInj_leBytes 8 _ _ hx.1 hy.1 _ _ h
  obtain ⟨rfl, k2⟩ := prefixInj_tlsVersion _ _ trivial trivial _ _ k1
  obtain ⟨rfl, k3⟩ := prefixInj_leBytes 4 _ _ hx.2.1 hy.2.1 _ _ k2
  obtain ⟨rfl, k4⟩ := prefixInj_leBytes 4 _ _ hx.2.2 hy.2.2 _ _ k3
  exact ⟨rfl, k4⟩

theorem prefixInj_serverEphemKey : PrefixInj (fun _ => True) ServerEphemKey.bcs := by
  rintro ⟨x⟩ ⟨y⟩ _ _ r s h
  simp only [ServerEphemKey.bcs, List.cons_append, List.nil_append,
    List.cons.injEq, true_and] at h
  obtain ⟨rfl, k1⟩ := prefixInj_bcsBytes _ _ trivial trivial _ _ h
  exact ⟨rfl, k1⟩

theorem prefixInj_certCommitment : PrefixInj (fun _ => True) ServerCertCommitment.bcs := by
  rintro ⟨x⟩ ⟨y⟩ _ _ r s h
  obtain ⟨rfl, k1⟩ := prefixInj_typedHash _ _ trivial trivial _ _ h
  exact ⟨rfl, k1⟩

theorem prefixInj_extension : PrefixInj (fun _ => True) Extension.bcs :=
  prefixInj_bcsBytes.pair prefixInj_bcsBytes Extension.id Extension.value (by simp)
    (by rintro ⟨⟩ ⟨⟩ rfl rfl; rfl)

theorem prefixInj_rangeSet :
    PrefixInj (fun s : RangeSet => ∀ r ∈ s.ranges, r.1 < 2 ^ 64 ∧ r.2 < 2 ^ 64) RangeSet.bcs := by
  have hr : PrefixInj (fun r : Rng => r.1 < 2 ^ 64 ∧ r.2 < 2 ^ 64)
      (fun r : Rng => leBytes 8 r.1 ++ leBytes 8 r.2) :=
    (prefixInj_leBytes 8).pair (prefixInj_leBytes 8) (fun r : Rng => r.1) (fun r : Rng => r.2)
      (by rw [pow256_8]; simp) (by rintro ⟨⟩ ⟨⟩ rfl rfl; rfl)
  rintro ⟨x, cx⟩ ⟨y, cy⟩ hx hy r s h
  obtain ⟨rfl, k1⟩ := prefixInj_bcsList hr _ _ hx hy _ _ h
  exact ⟨rfl, k1⟩

theorem prefixInj_plaintextHash :
    PrefixInj (fun c : PlaintextHash => ∀ r ∈ c.idx.ranges, r.1 < 2 ^ 64 ∧ r.2 < 2 ^ 64)
      PlaintextHash.bcs := by
  rintro ⟨xd, xi, xh⟩ ⟨yd, yi, yh⟩ hx hy r s h
  simp only [PlaintextHash.bcs, List.append_assoc, List.cons_append, List.nil_append,
    List.cons.injEq, true_and] at h
  obtain ⟨rfl, k1⟩ := prefixInj_direction _ _ trivial trivial _ _ h
  obtain ⟨rfl, k2⟩ := prefixInj_rangeSet _ _ hx hy _ _ k1
  obtain ⟨rfl, k3⟩ := prefixInj_typedHash _ _ trivial trivial _ _ k2
  exact ⟨rfl, k3⟩

theorem prefixInj_header : PrefixInj (fun h : Header => h.version < 2 ^ 32) Header.bcs := by
  rintro ⟨xi, xv, xr⟩ ⟨yi, yv, yr⟩ hx hy r s h
  simp only at hx hy
  rw [← pow256_4] at hx hy
  simp only [Header.bcs, List.append_assoc] at h
  obtain ⟨rfl, k1⟩ := prefixInj_vector 16 _ _ trivial trivial _ _ h
  obtain ⟨rfl, k2⟩ := prefixInj_leBytes 4 _ _ hx hy _ _ k1
  obtain ⟨rfl, k3⟩ := prefixInj_typedHash _ _ trivial trivial _ _ k2
  exact ⟨rfl, k3⟩

theorem SignatureAlgorithm.index_inj {a b : SignatureAlgorithm} (h : a.index = b.index) : a = b := by
  cases a <;> cases b <;> first | rfl | cases h

theorem prefixInj_handshakeData : PrefixInj (fun _ => True) HandshakeData.bcs := by
  rintro ⟨xc, xa, xs, xcr, xsr, xk⟩ ⟨yc, ya, ys, ycr, ysr, yk⟩ _ _ r s h
  simp only [HandshakeData.bcs, List.append_assoc, List.cons_append, List.nil_append] at h
  obtain ⟨rfl, k1⟩ := prefixInj_bcsList prefixInj_bcsBytes _ _ (by simp) (by simp) _ _ h
  obtain ⟨h1, k2⟩ := prefixInj_uleb _ _ trivial trivial _ _ k1
  obtain rfl := SignatureAlgorithm.index_inj h1
  obtain ⟨rfl, k3⟩ := prefixInj_bcsBytes _ _ trivial trivial _ _ k2
  simp only [List.cons.injEq, true_and] at k3
  obtain ⟨rfl, k4⟩ := prefixInj_vector 32 _ _ trivial trivial _ _ k3
  obtain ⟨rfl, k5⟩ := prefixInj_vector 32 _ _ trivial trivial _ _ k4
  obtain ⟨rfl, k6⟩ := prefixInj_serverEphemKey _ _ trivial trivial _ _ k5
  exact ⟨rfl, k6⟩

theorem opening_preimage_inj {dom : Domains} {a b : ServerCertOpening}
    (h : a.preimage dom = b.preimage dom) : a = b := by
  obtain ⟨ad, ab⟩ := a
  obtain ⟨bd, bb⟩ := b
  simp only [ServerCertOpening.preimage] at h
  have h := List.append_cancel_left h
  obtain ⟨rfl, k1⟩ := prefixInj_handshakeData _ _ trivial trivial _ _ h
  rw [Vector.toList_inj.1 k1]

theorem preimage_inj {dom : Domains} (hd : DomainsOk dom) {a b : FieldData}
    (ha : a.Representable) (hb : b.Representable) (h : a.preimage dom = b.preimage dom) : a = b := by
  obtain ⟨h1, h2⟩ := List.append_inj h (by rw [hd.1, hd.1])
  have ht := hd.2 _ _ h1
  cases a <;> cases b <;> simp only [FieldData.tag, reduceCtorEq] at ht <;>
    simp only [FieldData.bcs] at h2
  · rw [prefixInj_verifyingKey.inj trivial trivial h2]
  · rw [prefixInj_connectionInfo.inj ha hb h2]
  · rw [prefixInj_serverEphemKey.inj trivial trivial h2]
  · rw [prefixInj_certCommitment.inj trivial trivial h2]
  · rw [prefixInj_extension.inj trivial trivial h2]
  · rw [prefixInj_plaintextHash.inj ha hb h2]

/-! ## Bodies with consecutive identifiers -/

/-- The data of the fields, in order. -/
def fieldList (vk : VerifyingKey) (ci : ConnectionInfo) (ek : ServerEphemKey)
    (cc : ServerCertCommitment) (es : List Extension) (ts : List PlaintextHash) : List FieldData :=
  [.verifyingKey vk, .connectionInfo ci, .serverEphemKey ek, .certCommitment cc] ++
    es.map .extension ++ ts.map .commitment

/-- Consecutive identifiers from `n`, without wrap-around. -/
def numbered {α : Type} : Nat → List α → List (Field α)
  | _, [] => []
  | n, a :: t => ⟨n, a⟩ :: numbered (n + 1) t

theorem assignIds_eq {α : Type} (n : Nat) (l : List α) (h : n + l.length ≤ 2 ^ 32) :
    assignIds n l = numbered n l := by
  induction l generalizing n with
  | nil => rfl
  | cons a t ih =>
    rw [assignIds, numbered]
    cases t with
    | nil => rfl
    | cons b u =>
      rw [List.length_cons, List.length_cons] at h
      rw [Nat.mod_eq_of_lt (by omega), ih (n + 1) (by rw [List.length_cons]; omega)]

/-- A body whose fields have consecutive identifiers from `base`. -/
def mkBody (base : Nat) (vk : VerifyingKey) (ci : ConnectionInfo) (ek : ServerEphemKey)
    (cc : ServerCertCommitment) (es : List Extension) (ts : List PlaintextHash) : Body :=
  { verifyingKey := ⟨base, vk⟩
    connectionInfo := ⟨base + 1, ci⟩
    serverEphemeralKey := ⟨base + 2, ek⟩
    certCommitment := ⟨base + 3, cc⟩
    extensions := numbered (base + 4) es
    transcriptCommitments := numbered (base + 4 + es.length) ts }

theorem SignState.body_eq (s : SignState) (vk : VerifyingKey) (ci : ConnectionInfo)
    (ek : ServerEphemKey)
    (h : 4 + s.extensions.length + s.transcriptCommitments.length ≤ 2 ^ 32) :
    s.body vk ci ek =
      mkBody 0 vk ci ek s.certCommitment s.extensions s.transcriptCommitments := by
  unfold SignState.body mkBody
  rw [assignIds_eq _ _ (by omega)]
  simp only [Nat.zero_add, Body.mk.injEq, true_and]
  cases ht : s.transcriptCommitments with
  | nil => rfl
  | cons a t =>
    rw [ht, List.length_cons] at h
    rw [Nat.mod_eq_of_lt (by omega), assignIds_eq _ _ (by rw [List.length_cons]; omega)]

/-- The list with positions counted from `base`. -/
def enumFrom {α : Type} (base : Nat) (l : List α) : List (Nat × α) :=
  match l with
  | [] => []
  | a :: t => (base, a) :: enumFrom (base + 1) t

theorem enumFrom_append {α : Type} (base : Nat) (l m : List α) :
    enumFrom base (l ++ m) = enumFrom base l ++ enumFrom (base + l.length) m := by
  induction l generalizing base with
  | nil => rfl
  | cons a t ih =>
    simp only [List.cons_append, enumFrom, ih, List.length_cons]
    rw [show base + 1 + t.length = base + (t.length + 1) by omega]

theorem enumFrom_map {α β : Type} (f : α → β) (base : Nat) (l : List α) :
    enumFrom base (l.map f) = (enumFrom base l).map fun x => (x.1, f x.2) := by
  induction l generalizing base with
  | nil => rfl
  | cons a t ih => simp [enumFrom, ih]

theorem enumFrom_snd {α : Type} (base : Nat) (l : List α) : (enumFrom base l).map (·.2) = l := by
  induction l generalizing base with
  | nil => rfl
  | cons a t ih => simp [enumFrom, ih]

theorem enumFrom_fst {α : Type} (base : Nat) (l : List α) :
    (enumFrom base l).map (·.1) = List.range' base l.length := by
  induction l generalizing base with
  | nil => rfl
  | cons a t ih => simp [enumFrom, ih, List.range'_succ]

theorem enumFrom_sorted {α : Type} (base : Nat) (l : List α) :
    (enumFrom base l).Pairwise (fun a b => a.1 < b.1) := by
  have : ((enumFrom base l).map (·.1)).Pairwise (· < ·) := by
    rw [enumFrom_fst]; exact List.pairwise_lt_range'
  exact List.pairwise_map.1 this

theorem numbered_map {α β : Type} (f : α → β) (base : Nat) (l : List α) :
    (numbered base l).map (fun x => (x.id, f x.data)) = enumFrom base (l.map f) := by
  induction l generalizing base with
  | nil => rfl
  | cons a t ih => simp [numbered, enumFrom, ih]

theorem numbered_data {α : Type} (base : Nat) (l : List α) : (numbered base l).map (·.data) = l := by
  induction l generalizing base with
  | nil => rfl
  | cons a t ih => simp [numbered, ih]

theorem numbered_length {α : Type} (base : Nat) (l : List α) : (numbered base l).length = l.length := by
  induction l generalizing base with
  | nil => rfl
  | cons a t ih => simp [numbered, ih]

theorem numbered_id_lt {α : Type} (base : Nat) (l : List α) : ∀ f ∈ numbered base l,
    f.id < base + l.length := by
  induction l generalizing base with
  | nil => simp [numbered]
  | cons a t ih =>
    intro f hf
    rw [numbered] at hf
    rcases List.mem_cons.1 hf with rfl | hf
    · simp
    · have := ih (base + 1) f hf
      rw [List.length_cons]; omega

theorem mkBody_fields (base : Nat) (vk : VerifyingKey) (ci : ConnectionInfo) (ek : ServerEphemKey)
    (cc : ServerCertCommitment) (es : List Extension) (ts : List PlaintextHash) :
    (mkBody base vk ci ek cc es ts).fields = enumFrom base (fieldList vk ci ek cc es ts) := by
  unfold fieldList
  rw [enumFrom_append, enumFrom_append, ← numbered_map, ← numbered_map]
  simp [Body.fields, mkBody, enumFrom, Nat.add_assoc, Nat.add_comm es.length 4]

theorem mkBody_hashFields (dom : Domains) (h : HashAlg) (base : Nat) (vk : VerifyingKey)
    (ci : ConnectionInfo) (ek : ServerEphemKey) (cc : ServerCertCommitment) (es : List Extension)
    (ts : List PlaintextHash) :
    (mkBody base vk ci ek cc es ts).hashFields dom h =
      enumFrom base ((fieldList vk ci ek cc es ts).map fun f => h.hash (f.preimage dom)) := by
  unfold Body.hashFields
  rw [mkBody_fields, ← enumFrom_map (fun f : FieldData => h.hash (f.preimage dom)), sortLeaves_of_sorted]
  exact (enumFrom_sorted _ _).imp Nat.le_of_lt

theorem enumFrom_leavesAt (base : Nat) (l : List Digest) (m : List Digest) :
    enumFrom base l = ((List.range l.length).map fun i => (i, (l ++ m)[i]?.getD [])).map
      fun x => (base + x.1, x.2) := by
  have : ∀ (l : List Digest) (base : Nat),
      enumFrom base l = (List.range l.length).map fun i => (base + i, l[i]?.getD []) := by
    intro l
    induction l with
    | nil => intro; rfl
    | cons a t ih =>
      intro base
      rw [enumFrom, ih, List.length_cons, List.range_succ_eq_map]
      simp [Function.comp_def, Nat.add_assoc, Nat.add_comm 1]
  rw [this, List.map_map]
  apply List.map_congr_left
  intro i hi
  rw [List.mem_range] at hi
  simp [List.getElem?_append_left hi]

/-! ## The attestation builder -/

theorem build_ok {s : SignState} {c : CryptoProvider} {uid : Vector Byte 16} {a : Attestation} :
    s.build c uid = .ok a ↔ ∃ h signer ci ek, c.hash s.hashAlg = some h ∧
      c.signer s.signatureAlg = some signer ∧ s.connectionInfo = some ci ∧
      s.serverEphemeralKey = some ek ∧ a.body = s.body signer.verifyingKey ci ek ∧
      a.body.root c.dom h = some a.header.root ∧ a.header.id = uid ∧
      a.header.version = attestationVersion ∧ signer.sign a.header.bcs = some a.signature := by
  unfold SignState.build
  cases h1 : c.hash s.hashAlg with
  | none => simp
  | some h =>
    cases h2 : c.signer s.signatureAlg with
    | none => simp
    | some signer =>
      cases h3 : s.connectionInfo with
      | none => simp
      | some ci =>
        cases h4 : s.serverEphemeralKey with
        | none => simp
        | some ek =>
          simp only
          cases h5 : (s.body signer.verifyingKey ci ek).root c.dom h with
          | none =>
            simp only [reduceCtorEq, Option.some.injEq, false_iff, not_exists, not_and]
            rintro _ _ _ _ rfl rfl rfl rfl hb hr
            rw [hb, h5] at hr
            cases hr
          | some root =>
            simp only
            cases h6 : signer.sign (Header.bcs ⟨uid, attestationVersion, root⟩) with
            | none =>
              simp only [reduceCtorEq, Option.some.injEq, false_iff, not_exists, not_and]
              rintro _ _ _ _ rfl rfl rfl rfl hb hr hu hv hs
              obtain ⟨sig, ⟨i, v, r⟩, body⟩ := a
              simp only at hb hr hu hv hs
              subst hb hu hv
              rw [h5] at hr
              obtain rfl := Option.some.inj hr
              rw [h6] at hs
              cases hs
            | some sig =>
              simp only [Outcome.ok.injEq, Option.some.injEq]
              constructor
              · rintro rfl
                exact ⟨h, signer, ci, ek, rfl, rfl, rfl, rfl, rfl, h5, rfl, rfl, h6⟩
              · rintro ⟨_, _, _, _, rfl, rfl, rfl, rfl, hb, hr, hu, hv, hs⟩
                obtain ⟨sig', ⟨i, v, r⟩, body⟩ := a
                simp only at hb hr hu hv hs
                subst hb hu hv
                rw [h5] at hr
                obtain rfl := Option.some.inj hr
                rw [h6] at hs
                obtain rfl := Option.some.inj hs
                rfl

theorem assignIds_data {α : Type} (n : Nat) (l : List α) : (assignIds n l).map (·.data) = l := by
  induction l generalizing n with
  | nil => rfl
  | cons a t ih => simp [assignIds, ih]

theorem assignIds_length {α : Type} (n : Nat) (l : List α) : (assignIds n l).length = l.length := by
  induction l generalizing n with
  | nil => rfl
  | cons a t ih => simp [assignIds, ih]

theorem acceptRequest_ok {config : AttestationConfig} {r : Request} {s : SignState} :
    acceptRequest config r = .ok s ↔ r.signatureAlg ∈ config.supportedSignatureAlgs ∧
      r.hashAlg ∈ config.supportedHashAlgs ∧
      (∀ v, config.extensionValidator = some v → v r.extensions = true) ∧
      s = ⟨r.signatureAlg, r.hashAlg, none, none, r.serverCertCommitment, r.extensions, []⟩ := by
  unfold acceptRequest
  split
  · simp_all
  · split
    · simp_all
    · split
      · rename_i h
        cases hv : config.extensionValidator with
        | none => simp [hv] at h
        | some v => simp [hv] at h; simp [h]
      · rename_i h
        cases hv : config.extensionValidator with
        | none =>
          rename_i h1 h2
          rw [not_not] at h1 h2
          exact ⟨fun e => ⟨h1, h2, by simp, (Except.ok.inj e).symm⟩, fun e => by rw [e.2.2.2]⟩
        | some v =>
          rename_i h1 h2
          rw [not_not] at h1 h2
          simp only [hv, Option.all_some, Bool.not_eq_false] at h
          exact ⟨fun e => ⟨h1, h2, by simpa using h, (Except.ok.inj e).symm⟩,
            fun e => by rw [e.2.2.2]⟩

theorem foldl_apply (ops : List AttBuilderOp) (s : SignState) :
    let t := ops.foldl SignState.apply s
    t.signatureAlg = s.signatureAlg ∧ t.hashAlg = s.hashAlg ∧ t.certCommitment = s.certCommitment ∧
    t.connectionInfo = (lastSet AttBuilderOp.getConnectionInfo ops).or s.connectionInfo ∧
    t.serverEphemeralKey = (lastSet AttBuilderOp.getKey ops).or s.serverEphemeralKey ∧
    t.extensions = s.extensions ++ ops.filterMap AttBuilderOp.getExtension ∧
    t.transcriptCommitments =
      (lastSet AttBuilderOp.getCommitments ops).getD s.transcriptCommitments := by
  induction ops generalizing s with
  | nil => simp [lastSet]
  | cons o t ih =>
    obtain ⟨h1, h2, h3, h4, h5, h6, h7⟩ := ih (s.apply o)
    have last : ∀ {α : Type} (x : α) (l : List α),
        (x :: l).getLast? = l.getLast?.or (some x) := by
      intro α x l
      rw [List.getLast?_cons]
      cases l.getLast? <;> rfl
    cases o <;>
      simp_all [SignState.apply, lastSet, AttBuilderOp.getConnectionInfo, AttBuilderOp.getKey,
        AttBuilderOp.getExtension, AttBuilderOp.getCommitments]
    all_goals cases List.getLast? (List.filterMap AttBuilderOp.getCommitments t) <;> rfl

/-! ## From hashes to field data -/

theorem saidBy_of_fields {a b : Body} (h : ∀ f ∈ b.fields, ∃ g ∈ a.fields, f.2 = g.2) :
    SaidBy b a := by
  have hm : ∀ f ∈ b.fields, f.2 ∈ a.fields.map (·.2) := by
    intro f hf
    obtain ⟨g, hg, he⟩ := h f hf
    exact he ▸ List.mem_map_of_mem hg
  have hfield : ∀ d : FieldData, d ∈ a.fields.map (·.2) ↔
      d = .verifyingKey a.verifyingKey.data ∨ d = .connectionInfo a.connectionInfo.data ∨
      d = .serverEphemKey a.serverEphemeralKey.data ∨ d = .certCommitment a.certCommitment.data ∨
      (∃ e ∈ a.extensions, d = .extension e.data) ∨
      ∃ e ∈ a.transcriptCommitments, d = .commitment e.data := by
    intro d
    simp only [Body.fields, List.map_append, List.map_map, List.map_cons, List.map_nil,
      List.mem_append, List.mem_cons, List.mem_map, Function.comp_apply, List.not_mem_nil, or_false,
      or_assoc, eq_comm (b := d)]
  constructor
  · have := (hfield _).1 (hm (b.verifyingKey.id, .verifyingKey b.verifyingKey.data)
      (by simp [Body.fields]))
    simpa using this
  · have := (hfield _).1 (hm (b.connectionInfo.id, .connectionInfo b.connectionInfo.data)
      (by simp [Body.fields]))
    simpa using this
  · have := (hfield _).1 (hm (b.serverEphemeralKey.id, .serverEphemKey b.serverEphemeralKey.data)
      (by simp [Body.fields]))
    simpa using this
  · have := (hfield _).1 (hm (b.certCommitment.id, .certCommitment b.certCommitment.data)
      (by simp [Body.fields]))
    simpa using this
  · intro e he
    have := (hfield _).1 (hm (e.id, .extension e.data)
      (by simp only [Body.fields, List.mem_append, List.mem_map]; exact .inl (.inr ⟨e, he, rfl⟩)))
    simp only [reduceCtorEq, FieldData.extension.injEq, false_or, and_false, exists_false,
      or_false] at this
    obtain ⟨e', he', heq⟩ := this
    exact heq ▸ List.mem_map_of_mem he'
  · intro e he
    have := (hfield _).1 (hm (e.id, .commitment e.data)
      (by simp only [Body.fields, List.mem_append, List.mem_map]; exact .inr ⟨e, he, rfl⟩))
    simp only [reduceCtorEq, FieldData.commitment.injEq, false_or, and_false, exists_false] at this
    obtain ⟨e', he', heq⟩ := this
    exact heq ▸ List.mem_map_of_mem he'

theorem hashFields_perm (dom : Domains) (b : Body) (h : HashAlg) :
    (b.hashFields dom h).Perm (b.fields.map fun f => (f.1, h.hash (f.2.preimage dom))) :=
  sortLeaves_perm _

theorem perm_map_exists {α β : Type} {f : α → β} {l : List β} {m : List α} (h : l.Perm (m.map f)) :
    ∃ k : List α, k.Perm m ∧ l = k.map f := by
  generalize hr : m.map f = r at h
  induction h generalizing m with
  | nil => exact ⟨[], by rw [List.map_eq_nil_iff.1 hr], rfl⟩
  | cons x _ ih =>
    obtain ⟨a, t, rfl, rfl, ht⟩ := List.map_eq_cons_iff.1 hr
    obtain ⟨k, hk, rfl⟩ := ih ht
    exact ⟨a :: k, hk.cons a, rfl⟩
  | swap x y l =>
    obtain ⟨a, t, rfl, rfl, ht⟩ := List.map_eq_cons_iff.1 hr
    obtain ⟨b, t', rfl, rfl, rfl⟩ := List.map_eq_cons_iff.1 ht
    exact ⟨b :: a :: t', .swap _ _ _, rfl⟩
  | trans _ _ ih1 ih2 =>
    obtain ⟨k, hk, rfl⟩ := ih2 hr
    obtain ⟨k', hk', rfl⟩ := ih1 rfl
    exact ⟨k', hk'.trans hk, rfl⟩

theorem verify_sorted (checked : Bool) (p : MerkleProof) (h : HashAlg) (root : TypedHash)
    (l : List (Nat × Digest)) :
    p.verify checked h root (sortLeaves l) = p.verify checked h root l := by
  unfold MerkleProof.verify
  rw [sortLeaves_of_sorted _ (sortLeaves_sorted l)]

/-- The forged proof of `graft`, with the forged leaves numbered consecutively. -/
theorem graft_verify (checked : Bool) (t : MerkleTree) (h : HashAlg) (root : TypedHash) (alg : HashAlgId)
    (l pad : List Digest) (d j : Nat) (pre r : Digest) (hl : l ≠ [])
    (hsize : 2 ≤ t.leaves.length) (hr : t.root h = some root)
    (hj : t.leaves[j]? = some (h.hash (pre ++ r)))
    (hf : (l ++ pad).length = 2 ^ d) (hfr : layerUp h.hash d (l ++ pad) = [r]) :
    (⟨alg, 2 ^ (d + 1) * t.leaves.length, helperNodes h.hash d (l ++ pad) (List.range l.length) ++
      pre :: helperNodes h.hash (treeDepth t.leaves.length) t.leaves [j]⟩ : MerkleProof).verify checked
      h root (enumFrom (2 ^ d * (2 * j + 1)) l) = .ok () := by
  obtain ⟨rv, hrv, rfl⟩ := Option.map_eq_some_iff.1 hr
  have hg := graft checked t.leaves (l ++ pad) d j pre r (List.range l.length) hsize hj hf hfr
    List.pairwise_lt_range (by intro i hi; rw [List.mem_range] at hi; simp; omega)
    (by simpa using hl)
  have e := enumFrom_leavesAt (2 ^ d * (2 * j + 1)) l pad
  have hst := enumFrom_sorted (2 ^ d * (2 * j + 1)) l
  unfold MerkleProof.verify
  simp only [sortLeaves_of_sorted _ (hst.imp Nat.le_of_lt)]
  rw [if_neg (by rw [not_not]; exact List.pairwise_map.2 (hst.imp Nat.ne_of_lt)), if_pos]
  rw [e]
  exact hg.trans hrv

theorem helperLayer_mem (full : List Digest) (idxs : List Nat) :
    ∀ x ∈ helperLayer full idxs, x ∈ full := by
  fun_induction helperLayer full idxs with
  | case1 => simp
  | case2 i hi rest' ih => exact ih
  | case3 i hi j rest' hj ih =>
    intro x hx
    rcases List.mem_append.1 hx with hx | hx
    · exact List.mem_of_getElem? (Option.mem_toList.1 hx)
    · exact ih x hx
  | case4 => simp
  | case5 i hi hne =>
    intro x hx
    exact List.mem_of_getElem? (Option.mem_toList.1 hx)
  | case6 i rest hi ih =>
    intro x hx
    rcases List.mem_append.1 hx with hx | hx
    · exact List.mem_of_getElem? (Option.mem_toList.1 hx)
    · exact ih x hx

theorem helperNodes_len {N : Nat} {H : Bytes → Digest} (hN : ∀ x, (H x).length ≤ N) (k : Nat)
    (full : List Digest) (idxs : List Nat) (hf : ∀ x ∈ full, x.length ≤ N) :
    ∀ x ∈ helperNodes H k full idxs, x.length ≤ N := by
  induction k generalizing full idxs with
  | zero => simp [helperNodes]
  | succ k ih =>
    intro x hx
    rw [helperNodes] at hx
    rcases List.mem_append.1 hx with hx | hx
    · exact hf x (helperLayer_mem full idxs x hx)
    · refine ih (parentLayer H full) (parentIdxs idxs) ?_ x hx
      have : ∀ l : List Digest, (∀ x ∈ l, x.length ≤ N) → ∀ x ∈ parentLayer H l, x.length ≤ N := by
        intro l
        fun_induction parentLayer H l with
        | case1 a b t ih =>
          intro hl x hx
          rcases List.mem_cons.1 hx with rfl | hx
          · exact hN _
          · exact ih (fun y hy => hl y (by simp [hy])) x hx
        | case2 l h => exact id
      exact this full hf

end Tlsn
