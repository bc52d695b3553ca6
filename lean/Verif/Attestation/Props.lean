import Verif.Attestation.Lemmas
import Verif.Proof.Props
import Mathlib.Tactic.Set
import Mathlib.Tactic.NormNum

/-!
# Properties of attestations and presentations (C20 – C25, C53, C54)
-/

namespace Tlsn

/-! ## C53: canonical serialization -/

/-- **C53** The domain separated serialization of body fields is injective: different field contents, or
contents of different types, are never hashed from the same bytes. -/
theorem C53_fields_injective (dom : Domains) (hd : DomainsOk dom) (a b : FieldData)
    (ha : a.Representable) (hb : b.Representable) (h : a.preimage dom = b.preimage dom) : a = b :=
  preimage_inj hd ha hb h

/-- **C53** Two different headers never have the same signed message. -/
theorem C53_header_injective (a b : Header) (ha : a.version < 2 ^ 32) (hb : b.version < 2 ^ 32)
    (h : a.bcs = b.bcs) : a = b :=
  prefixInj_header.inj ha hb h

/-- **C53** A commitment to the server certificate hashes the blinded handshake data injectively, and its
input is never the input of a body field's hash. -/
theorem C53_opening_injective (dom : Domains) (hd : DomainsOk dom) (a b : ServerCertOpening)
    (f : FieldData) :
    (a.preimage dom = b.preimage dom → a = b) ∧ a.preimage dom ≠ f.preimage dom := by
  refine ⟨opening_preimage_inj, fun h => ?_⟩
  have := hd.2 _ _ (List.append_inj h (by rw [hd.1, hd.1])).1
  cases f <;> cases this

/-- Domain separators for the examples. -/
def exDom : Domains
  | .verifyingKey => List.replicate 16 0
  | .connectionInfo => List.replicate 16 1
  | .serverEphemKey => List.replicate 16 2
  | .serverCertCommitment => List.replicate 16 3
  | .extension => List.replicate 16 4
  | .transcriptCommitment => List.replicate 16 5
  | .serverCertOpening => List.replicate 16 6

theorem exDom_ok : DomainsOk exDom := by
  refine ⟨fun t => by cases t <;> rfl, fun t u h => ?_⟩
  cases t <;> cases u <;> first | rfl | exact absurd h (by decide)

/-- Example for `C53_fields_injective`: two extensions with the same concatenated content. -/
example : (FieldData.extension ⟨[1], [2, 3]⟩).preimage exDom ≠
    (FieldData.extension ⟨[1, 2], [3]⟩).preimage exDom := fun h =>
  absurd (C53_fields_injective exDom exDom_ok (.extension _) (.extension _) trivial trivial h) (by decide)

/-! ## C54: what an attestation contains -/

/-- **C54** Whatever the history of setter calls, an attestation that is built contains exactly: the
signer's verifying key, the last connection information and the last server key that were set, the
commitment of the accepted request, the request's extensions followed by the extensions added, and the
last list of transcript commitments; its header has version 0, the given identifier and the root of
exactly this body, and the signature is the signer's signature of that header. -/
theorem C54_contents (c : CryptoProvider) (config : AttestationConfig) (r : Request)
    (ops : List AttBuilderOp) (uid : Vector Byte 16) (a : Attestation)
    (h : NotaryBuilds c config r ops uid a) :
    ∃ hasher signer, c.hash r.hashAlg = some hasher ∧ c.signer r.signatureAlg = some signer ∧
      a.body.verifyingKey.data = signer.verifyingKey ∧
      lastSet AttBuilderOp.getConnectionInfo ops = some a.body.connectionInfo.data ∧
      lastSet AttBuilderOp.getKey ops = some a.body.serverEphemeralKey.data ∧
      a.body.certCommitment.data = r.serverCertCommitment ∧
      a.body.extensions.map (·.data) = r.extensions ++ ops.filterMap AttBuilderOp.getExtension ∧
      a.body.transcriptCommitments.map (·.data) =
        (lastSet AttBuilderOp.getCommitments ops).getD [] ∧
      a.header.version = 0 ∧ a.header.id = uid ∧
      a.body.root c.dom hasher = some a.header.root ∧
      signer.sign a.header.bcs = some a.signature := by
  obtain ⟨s, h1, h2⟩ := h
  obtain ⟨_, _, _, rfl⟩ := acceptRequest_ok.1 h1
  obtain ⟨hh, sg, ci, ek, k1, k2, k3, k4, k5, k6, k7, k8, k9⟩ := build_ok.1 h2
  obtain ⟨e1, e2, e3, e4, e5, e6, e7⟩ := foldl_apply ops
    ⟨r.signatureAlg, r.hashAlg, none, none, r.serverCertCommitment, r.extensions, []⟩
  rw [e2] at k1
  rw [e1] at k2
  rw [e4, Option.or_none] at k3
  rw [e5, Option.or_none] at k4
  refine ⟨hh, sg, k1, k2, ?_, ?_, ?_, ?_, ?_, ?_, k8, k7, k6, k9⟩
  · rw [k5]; rfl
  · rw [k3, k5]; rfl
  · rw [k4, k5]; rfl
  · rw [k5]; exact e3
  · rw [k5]; simp only [SignState.body, assignIds_data, e6]
  · rw [k5]; simp only [SignState.body, assignIds_data, e7]

/-- **C54** The notary builds an attestation exactly if the request's algorithms are supported and
implemented, the extension validator (if any) accepts the request's extensions, both mandatory fields
were set and the signer signs. -/
theorem C54_builds_iff (c : CryptoProvider) (config : AttestationConfig) (r : Request)
    (ops : List AttBuilderOp) (uid : Vector Byte 16)
    (hsign : ∀ s, c.signer r.signatureAlg = some s → ∀ m, (s.sign m).isSome) :
    (∃ a, NotaryBuilds c config r ops uid a) ↔
      r.signatureAlg ∈ config.supportedSignatureAlgs ∧ r.hashAlg ∈ config.supportedHashAlgs ∧
      (∀ v, config.extensionValidator = some v → v r.extensions = true) ∧
      (c.hash r.hashAlg).isSome ∧ (c.signer r.signatureAlg).isSome ∧
      (∃ ci, AttBuilderOp.connectionInfo ci ∈ ops) ∧ ∃ ek, AttBuilderOp.serverEphemeralKey ek ∈ ops := by
  have hci : (lastSet AttBuilderOp.getConnectionInfo ops).isSome ↔
      ∃ ci, AttBuilderOp.connectionInfo ci ∈ ops := by
    unfold lastSet
    rw [List.getLast?_isSome, Ne, List.filterMap_eq_nil_iff]
    constructor
    · intro hne
      by_contra hcon
      refine hne fun o ho => ?_
      cases o with
      | connectionInfo ci => exact absurd ⟨ci, ho⟩ hcon
      | _ => rfl
    · rintro ⟨ci, h⟩ hall
      cases hall _ h
  have hek : (lastSet AttBuilderOp.getKey ops).isSome ↔
      ∃ ek, AttBuilderOp.serverEphemeralKey ek ∈ ops := by
    unfold lastSet
    rw [List.getLast?_isSome, Ne, List.filterMap_eq_nil_iff]
    constructor
    · intro hne
      by_contra hcon
      refine hne fun o ho => ?_
      cases o with
      | serverEphemeralKey ci => exact absurd ⟨ci, ho⟩ hcon
      | _ => rfl
    · rintro ⟨ci, h⟩ hall
      cases hall _ h
  constructor
  · rintro ⟨a, ha⟩
    obtain ⟨hh, sg, k1, k2, _, k3, k4, _⟩ := C54_contents c config r ops uid a ha
    obtain ⟨s, h1, _⟩ := ha
    obtain ⟨m1, m2, m3, _⟩ := acceptRequest_ok.1 h1
    exact ⟨m1, m2, m3, by simp [k1], by simp [k2], hci.1 (by simp [k3]), hek.1 (by simp [k4])⟩
  · rintro ⟨m1, m2, m3, m4, m5, m6, m7⟩
    obtain ⟨hh, k1⟩ := Option.isSome_iff_exists.1 m4
    obtain ⟨sg, k2⟩ := Option.isSome_iff_exists.1 m5
    obtain ⟨ci, k3⟩ := Option.isSome_iff_exists.1 (hci.2 m6)
    obtain ⟨ek, k4⟩ := Option.isSome_iff_exists.1 (hek.2 m7)
    set s0 : SignState :=
      ⟨r.signatureAlg, r.hashAlg, none, none, r.serverCertCommitment, r.extensions, []⟩ with hs0
    obtain ⟨e1, e2, e3, e4, e5, e6, e7⟩ := foldl_apply ops s0
    rw [k3] at e4
    rw [k4] at e5
    set t := ops.foldl SignState.apply s0 with ht
    have hroot : ((t.body sg.verifyingKey ci ek).root c.dom hh).isSome := by
      unfold Body.root
      rw [(C18_proof_exists_iff _ hh []).2, Ne, List.map_eq_nil_iff]
      intro hnil
      have := (hashFields_perm c.dom (t.body sg.verifyingKey ci ek) hh).length_eq
      rw [hnil] at this
      simp [Body.fields] at this
    obtain ⟨root, hroot⟩ := Option.isSome_iff_exists.1 hroot
    obtain ⟨sig, hsig⟩ := Option.isSome_iff_exists.1
      (hsign sg k2 (Header.bcs ⟨uid, attestationVersion, root⟩))
    exact ⟨⟨sig, ⟨uid, attestationVersion, root⟩, t.body sg.verifyingKey ci ek⟩, s0,
      acceptRequest_ok.2 ⟨m1, m2, m3, rfl⟩,
      build_ok.2 ⟨hh, sg, ci, ek, e2 ▸ k1, e1 ▸ k2, e4, e5, rfl, hroot, rfl, rfl, hsig⟩⟩

/-- **C54** A notary with the default configuration refuses every request that contains an extension. -/
theorem C54_default_refuses_extensions (sigAlgs : List SignatureAlgId) (r : Request)
    (h : r.extensions ≠ []) (s : SignState) :
    acceptRequest (AttestationConfig.default sigAlgs) r ≠ .ok s := by
  rw [Ne, acceptRequest_ok]
  rintro ⟨_, _, hv, _⟩
  have := hv _ rfl
  exact h (by simpa using this)

/-- A provider for the examples: the signature is the signed message. -/
def exProvider : CryptoProvider where
  hash := fun a => if a = 1 then some toyHash else none
  cert := ⟨fun _ => true, fun _ _ _ => true, fun _ _ => true, fun _ _ _ _ => true⟩
  signer := fun a => if a = 1 then some ⟨1, ⟨1, [9]⟩, fun m => some ⟨1, m⟩⟩ else none
  signature := fun a => if a = 1 then some fun _ m s => decide (m = s) else none
  dom := exDom

theorem exProvider_ok : ProviderOk exProvider.hash ∧ SignaturesAccepted exProvider exProvider := by
  constructor
  · intro a h ha
    simp only [exProvider] at ha
    split at ha
    · rename_i h1; obtain rfl := Option.some.inj ha; exact h1.symm
    · cases ha
  · intro alg s m sig h1 h2
    simp only [exProvider] at h1
    split at h1
    · obtain rfl := Option.some.inj h1
      obtain rfl := Option.some.inj h2
      exact ⟨_, rfl, by simp⟩
    · cases h1

/-- A request for the examples. -/
def exRequest : Request := ⟨1, 1, ⟨⟨1, [0, 1]⟩⟩, []⟩

/-- A history of setter calls for the examples. -/
def exOps : List AttBuilderOp :=
  [.connectionInfo ⟨1, .v12, ⟨2, 3⟩⟩, .serverEphemeralKey ⟨[4]⟩, .connectionInfo ⟨5, .v12, ⟨2, 3⟩⟩,
   .transcriptCommitments [⟨.sent, RangeSet.ofRange 0 2, ⟨1, [0, 18]⟩⟩]]

/-- Example for `C54_builds_iff` and `C54_contents`: such a notary run exists. -/
theorem exNotary (uid : Vector Byte 16) :
    ∃ a, NotaryBuilds exProvider (AttestationConfig.default [1]) exRequest exOps uid a := by
  rw [C54_builds_iff]
  · refine ⟨by decide, by decide, ?_, by decide, by decide, ⟨_, List.mem_cons_self⟩, ⟨_,
      List.mem_cons_of_mem _ List.mem_cons_self⟩⟩
    intro v hv
    obtain rfl := Option.some.inj hv
    rfl
  · intro s hs m
    simp only [exProvider] at hs
    split at hs
    · obtain rfl := Option.some.inj hs; rfl
    · cases hs

/-! ## C21: completeness -/

/-- The body of a built attestation has consecutive identifiers from 0. -/
theorem built_body {c : CryptoProvider} {config : AttestationConfig} {r : Request}
    {ops : List AttBuilderOp} {uid : Vector Byte 16} {a : Attestation}
    (h : NotaryBuilds c config r ops uid a) (hcount : a.body.fieldCount ≤ 2 ^ 32) :
    a.body = mkBody 0 a.body.verifyingKey.data a.body.connectionInfo.data
      a.body.serverEphemeralKey.data r.serverCertCommitment (a.body.extensions.map (·.data))
      (a.body.transcriptCommitments.map (·.data)) := by
  obtain ⟨s, h1, h2⟩ := h
  obtain ⟨_, _, _, rfl⟩ := acceptRequest_ok.1 h1
  obtain ⟨hh, sg, ci, ek, k1, k2, k3, k4, k5, k6, k7, k8, k9⟩ := build_ok.1 h2
  obtain ⟨e1, e2, e3, e4, e5, e6, e7⟩ := foldl_apply ops
    ⟨r.signatureAlg, r.hashAlg, none, none, r.serverCertCommitment, r.extensions, []⟩
  generalize ops.foldl SignState.apply
    ⟨r.signatureAlg, r.hashAlg, none, none, r.serverCertCommitment, r.extensions, []⟩ = t at *
  rw [k5] at hcount ⊢
  simp only [Body.fieldCount, SignState.body, assignIds_length] at hcount
  rw [SignState.body_eq _ _ _ _ hcount]
  simp only [mkBody, numbered_data, e3]

/-- **C21** An attestation that a notary built can be proved, and the proof verifies and yields exactly
that attestation, for every number of extensions and commitments (up to the 2^32 field identifiers). -/
theorem C21_complete (checked : Bool) (c v : CryptoProvider) (config : AttestationConfig) (r : Request)
    (ops : List AttBuilderOp) (uid : Vector Byte 16) (a : Attestation)
    (h : NotaryBuilds c config r ops uid a) (hp : ProviderOk c.hash)
    (hhash : v.hash = c.hash) (hdom : v.dom = c.dom) (hsig : SignaturesAccepted c v)
    (hcount : a.body.fieldCount ≤ 2 ^ 32) :
    ∃ p, AttestationProof.new v a = .ok p ∧ p.verify checked v = .ok a := by
  obtain ⟨hh, sg, k1, k2, k3, -, -, -, -, -, -, -, k4, k5⟩ := C54_contents c config r ops uid a h
  have hb := built_body h hcount
  have halg : a.header.root.alg = r.hashAlg := by
    obtain ⟨rv, -, hrv⟩ := Option.map_eq_some_iff.1 k4
    rw [← hrv]
    exact hp _ _ k1
  set l := (fieldList a.body.verifyingKey.data a.body.connectionInfo.data
      a.body.serverEphemeralKey.data r.serverCertCommitment (a.body.extensions.map (·.data))
      (a.body.transcriptCommitments.map (·.data))).map fun f => hh.hash (f.preimage c.dom) with hl
  have hf : a.body.hashFields c.dom hh = enumFrom 0 l := by
    rw [hb, mkBody_hashFields, hl]
  have hlne : l ≠ [] := by simp [hl, fieldList]
  set t := MerkleTree.mk hh.id l with ht
  have hroot : t.root hh = some a.header.root := by
    rw [← k4, Body.root, hf, enumFrom_snd]
  have hproof : (t.proof hh (List.range l.length)).isSome := by
    rw [(C18_proof_exists_iff _ _ _).1]
    refine ⟨?_, List.pairwise_lt_range, by simp [ht]⟩
    intro h0
    exact hlne (List.length_eq_zero_iff.1 (List.range_eq_nil.1 h0))
  obtain ⟨mp, hmp⟩ := Option.isSome_iff_exists.1 hproof
  obtain ⟨sv, hsv, hok⟩ := hsig _ _ _ _ k2 k5
  refine ⟨⟨a.signature, a.header, ⟨a.body, mp⟩⟩, ?_, ?_⟩
  · unfold AttestationProof.new BodyProof.new
    rw [hhash, hdom, halg, k1]
    simp only [hf, enumFrom_fst, enumFrom_snd, ← List.range_eq_range']
    rw [hmp]
    rfl
  · unfold AttestationProof.verify BodyProof.verify
    rw [hsv]
    simp only [hhash, hdom, halg, k1]
    have := C18_complete checked t hh (List.range l.length) a.header.root mp (enumFrom 0 l) hroot hmp
      (by
        have := enumFrom_leavesAt 0 l []
        rw [List.append_nil] at this
        simp only [Nat.zero_add, Prod.mk.eta, List.map_id'] at this
        exact .of_eq this)
    rw [hf, this]
    simp only [k3, hok, if_true]

/-- Example for `C21_complete`. -/
example (uid : Vector Byte 16) : ∃ a p,
    NotaryBuilds exProvider (AttestationConfig.default [1]) exRequest exOps uid a ∧
    AttestationProof.new exProvider a = .ok p ∧ p.verify true exProvider = .ok a := by
  obtain ⟨a, ha⟩ := exNotary uid
  obtain ⟨hh, sg, -, -, -, -, -, -, k1, k2, -⟩ := C54_contents _ _ _ _ _ a ha
  have hc : a.body.fieldCount ≤ 2 ^ 32 := by
    have h1 := congrArg List.length k1
    have h2 := congrArg List.length k2
    rw [List.length_map] at h1 h2
    rw [Body.fieldCount, h1, h2]
    decide
  obtain ⟨p, h1, h2⟩ := C21_complete true _ exProvider _ _ _ _ a ha exProvider_ok.1 rfl rfl
    exProvider_ok.2 hc
  exact ⟨a, p, ha, h1, h2⟩

/-! ## C22: verified attestations are signed ones -/

/-- **C22** What a successful verification establishes, and all that it needs: the Merkle proof connects
every field of the body to the header's root, and the signature of the header is valid for the verifying
key in the body.  The result is the attestation inside the proof. -/
theorem C22_verify_iff (checked : Bool) (p : AttestationProof) (c : CryptoProvider) (a : Attestation) :
    p.verify checked c = .ok a ↔
      a = ⟨p.signature, p.header, p.body.body⟩ ∧
      (∃ h, c.hash p.header.root.alg = some h ∧ p.body.proof.verify checked h p.header.root
        (p.body.body.fields.map fun f => (f.1, h.hash (f.2.preimage c.dom))) = .ok ()) ∧
      ∃ sv, c.signature p.signature.alg = some sv ∧
        sv a.body.verifyingKey.data p.header.bcs p.signature.data = true := by
  unfold AttestationProof.verify BodyProof.verify Body.hashFields
  simp only [verify_sorted]
  cases h1 : c.signature p.signature.alg with
  | none => simp
  | some sv =>
    cases h2 : c.hash p.header.root.alg with
    | none => simp
    | some h =>
      simp only [Option.some.injEq, exists_eq_left']
      cases h3 : p.body.proof.verify checked h p.header.root
        (p.body.body.fields.map fun f => (f.1, h.hash (f.2.preimage c.dom))) with
      | error e => simp
      | ok u =>
        cases hs : sv p.body.body.verifyingKey.data p.header.bcs p.signature.data with
        | true =>
          simp only [hs, if_true, Except.ok.injEq, true_and]
          constructor
          · rintro rfl; exact ⟨rfl, hs⟩
          · rintro ⟨rfl, _⟩; rfl
        | false =>
          simp only [hs, Bool.false_eq_true, if_false, reduceCtorEq, true_and, false_iff]
          rintro ⟨rfl, h4⟩
          rw [hs] at h4; cases h4

/-- **C22** If the holder of the key `k` signed only the headers in `signed`, then every verified
attestation that names the key `k` has one of these headers. -/
theorem C22_header_signed (checked : Bool) (p : AttestationProof) (c : CryptoProvider)
    (k : VerifyingKey) (signed : List Header) (hk : OnlySigned c k signed)
    (hver : p.header.version < 2 ^ 32 ∧ ∀ hd ∈ signed, hd.version < 2 ^ 32) (b : Attestation)
    (hv : p.verify checked c = .ok b) (hkey : b.body.verifyingKey.data = k) : b.header ∈ signed := by
  obtain ⟨rfl, -, sv, h1, h2⟩ := (C22_verify_iff checked p c b).1 hv
  simp only at hkey h2 ⊢
  rw [hkey] at h2
  obtain ⟨hd, hm, he⟩ := hk _ _ _ _ h1 h2
  rw [C53_header_injective _ _ hver.1 (hver.2 hd hm) he]
  exact hm

/-- Fields whose hash input is among the hash inputs of `a`'s fields. -/
theorem saidBy_of_preimages {dom : Domains} (hd : DomainsOk dom) {a b : Body} (ha : a.Representable)
    (hb : b.Representable)
    (h : ∀ f ∈ b.fields, ∃ g ∈ a.fields, f.2.preimage dom = g.2.preimage dom) : SaidBy b a := by
  refine saidBy_of_fields fun f hf => ?_
  obtain ⟨g, hg, he⟩ := h f hf
  exact ⟨g, hg, preimage_inj hd (hb f hf) (ha g hg) he⟩

/-- **C22** If the verified proof states the true number of fields, everything it shows was said by the
notary: the four single fields are those of the signed attestation and the extensions and commitments are
among its extensions and commitments, or a hash collision exists.  (Without the hypothesis on the number
of fields this fails, see `C20_forgery`.) -/
theorem C22_body_bound (checked : Bool) (N : Nat) (c v : CryptoProvider) (config : AttestationConfig)
    (r : Request) (ops : List AttBuilderOp) (uid : Vector Byte 16) (a b : Attestation)
    (p : AttestationProof) (h : HashAlg) (ha : NotaryBuilds c config r ops uid a)
    (hp : ProviderOk c.hash) (hh : c.hash r.hashAlg = some h)
    (hhash : v.hash = c.hash) (hdom : v.dom = c.dom) (hd : DomainsOk c.dom) (hN : OutLen N h)
    (hra : a.body.Representable) (hrb : b.body.Representable)
    (hv : p.verify checked v = .ok b) (hhead : b.header = a.header)
    (hn : p.body.proof.leafCount = a.body.fieldCount)
    (hin : checked = true ∨ ∀ f ∈ b.body.fields, f.1 < a.body.fieldCount) :
    SaidBy b.body a.body ∨ Collision h := by
  obtain ⟨hh', sg, k1, k2, k3, -, -, -, -, -, -, -, k4, k5⟩ := C54_contents c config r ops uid a ha
  rw [hh] at k1
  obtain rfl := Option.some.inj k1
  have halg : a.header.root.alg = r.hashAlg := by
    obtain ⟨rv, -, hrv⟩ := Option.map_eq_some_iff.1 k4
    rw [← hrv]
    exact hp _ _ hh
  obtain ⟨rfl, ⟨h2, m1, m2⟩, -⟩ := (C22_verify_iff checked p v b).1 hv
  simp only at hhead hrb hin
  rw [hhead, halg, hhash, hh] at m1
  obtain rfl := Option.some.inj m1
  rw [hhead, hdom] at m2
  set L := (a.body.hashFields c.dom h).map (·.2) with hL
  have hLperm : L.Perm (a.body.fields.map fun f => h.hash (f.2.preimage c.dom)) := by
    have := (hashFields_perm c.dom a.body h).map (·.2)
    rwa [List.map_map] at this
  have hLlen : L.length = a.body.fieldCount := by
    rw [hLperm.length_eq]
    simp [Body.fields, Body.fieldCount]
    omega
  have hbind := C19_binding checked N (MerkleTree.mk h.id L) h a.header.root p.body.proof _ hN
    (by
      intro x hx
      obtain ⟨f, -, rfl⟩ := List.mem_map.1 (hLperm.mem_iff.1 hx)
      exact hN _)
    (by
      intro x hx
      obtain ⟨f, -, rfl⟩ := List.mem_map.1 hx
      exact hN _)
    k4 (hn.trans hLlen.symm)
    (hin.imp_right fun hi => by
      intro x hx
      obtain ⟨f, hf, rfl⟩ := List.mem_map.1 hx
      simp only [hLlen]
      exact hi f hf)
    m2
  rcases hbind with hbind | hcol
  · by_cases hcol : Collision h
    · exact .inr hcol
    left
    refine saidBy_of_preimages hd hra hrb fun f hf => ?_
    have := hbind _ (List.mem_map_of_mem hf)
    obtain ⟨g, hg, he⟩ := List.mem_map.1 (hLperm.mem_iff.1 (List.mem_of_getElem? this))
    refine ⟨g, hg, ?_⟩
    by_contra hne
    exact hcol ⟨_, _, hne, he.symm⟩
  · exact .inr hcol

/-! ## C20: unsigned contents -/

/-- The root of a full forged tree. -/
theorem forged_root {N : Nat} {h : HashAlg} (hN : OutLen N h) (d : Nat) (F : List Digest)
    (hF : F.length = 2 ^ d) (hall : AllLen N F) : ∃ r, layerUp h.hash d F = [r] ∧ r.length = N := by
  induction d generalizing F with
  | zero =>
    obtain ⟨r, rfl⟩ := List.length_eq_one_iff.1 hF
    exact ⟨r, rfl, hall r (by simp)⟩
  | succ d ih =>
    rw [layerUp]
    refine ih _ ?_ (hall.parent hN)
    rw [parentLayer_length, hF, halfUp, Nat.pow_succ]
    omega

/-- **C20** (the code does not have the property) A prover who chooses the server certificate commitment
of its request can present contents the notary never signed.  For every hash function of the provider with
outputs of `N ≤ 64` bytes and all fake connection information, server key, commitment, extensions and
transcript commitments, there is a commitment value, of the length of a hash, with which every attestation
the notary then issues can be turned into a proof that verifies with the notary's signature and header but
shows the fake contents. -/
theorem C20_forgery (checked : Bool) (N : Nat) (c v : CryptoProvider) (alg : HashAlgId) (h : HashAlg)
    (hp : ProviderOk c.hash) (hh : c.hash alg = some h) (hN : OutLen N h) (hN64 : N ≤ 64)
    (hd : ∀ t, (c.dom t).length = 16)
    (hhash : v.hash = c.hash) (hdom : v.dom = c.dom) (hsig : SignaturesAccepted c v)
    (vk : VerifyingKey) (ci : ConnectionInfo) (ek : ServerEphemKey) (cc : ServerCertCommitment)
    (es : List Extension) (ts : List PlaintextHash) (hm : 4 + es.length + ts.length ≤ 2 ^ 29) :
    ∃ fake : ServerCertCommitment, fake.hash.alg = alg ∧ fake.hash.value.length = N ∧
      ∀ config r ops uid a, r.serverCertCommitment = fake → r.hashAlg = alg →
        NotaryBuilds c config r ops uid a → a.body.verifyingKey.data = vk →
        a.body.fieldCount ≤ 2 ^ 32 →
        ∃ (p : AttestationProof) (b : Attestation), p.verify checked v = .ok b ∧ b.header = a.header ∧ b.signature = a.signature ∧
          (∀ x ∈ p.body.proof.hashes, x.length ≤ 64) ∧ p.body.proof.leafCount < 2 ^ 64 ∧
          (∀ f ∈ b.body.fields, f.1 < 2 ^ 32) ∧
          b.body.verifyingKey.data = vk ∧ b.body.connectionInfo.data = ci ∧
          b.body.serverEphemeralKey.data = ek ∧ b.body.certCommitment.data = cc ∧
          b.body.extensions.map (·.data) = es ∧ b.body.transcriptCommitments.map (·.data) = ts := by
  set m := 4 + es.length + ts.length with hmdef
  set d := Nat.clog 2 m with hddef
  have hmd : m ≤ 2 ^ d := Nat.le_pow_clog (by norm_num) m
  have hd29 : d ≤ 29 := (Nat.clog_le_iff_le_pow (by norm_num)).2 hm
  have hpow : 2 ^ d ≤ 2 ^ 29 := Nat.pow_le_pow_right (by norm_num) hd29
  set l := (fieldList vk ci ek cc es ts).map fun f => h.hash (f.preimage c.dom) with hl
  have hllen : l.length = m := by simp [hl, fieldList, hmdef]; omega
  set pad := List.replicate (2 ^ d - m) (List.replicate N (0 : Byte)) with hpad
  have hF : (l ++ pad).length = 2 ^ d := by
    rw [List.length_append, hllen, hpad, List.length_replicate]; omega
  have hall : AllLen N (l ++ pad) := by
    intro x hx
    rcases List.mem_append.1 hx with hx | hx
    · obtain ⟨f, -, rfl⟩ := List.mem_map.1 hx
      exact hN _
    · rw [(List.mem_replicate.1 hx).2, List.length_replicate]
  obtain ⟨rt, hrt, hrl⟩ := forged_root hN d _ hF hall
  refine ⟨⟨⟨alg, rt⟩⟩, rfl, hrl, ?_⟩
  intro config r ops uid a hcm hal ha hvk hcount
  obtain ⟨hh', sg, k1, k2, k3, -, -, -, -, -, -, -, k4, k5⟩ := C54_contents c config r ops uid a ha
  have hb := built_body ha hcount
  rw [hcm] at hb
  rw [hal, hh] at k1
  obtain rfl := Option.some.inj k1
  have halg : a.header.root.alg = alg := by
    obtain ⟨rv, -, hrv⟩ := Option.map_eq_some_iff.1 k4
    rw [← hrv]
    exact hp _ _ hh
  obtain ⟨sv, hsv, hok⟩ := hsig _ _ _ _ k2 k5
  set FD := fieldList a.body.verifyingKey.data a.body.connectionInfo.data
      a.body.serverEphemeralKey.data ⟨⟨alg, rt⟩⟩ (a.body.extensions.map (·.data))
      (a.body.transcriptCommitments.map (·.data)) with hFD
  set L := FD.map fun f => h.hash (f.preimage c.dom) with hL
  have hLlen : L.length = a.body.fieldCount := by
    simp [hL, hFD, fieldList, Body.fieldCount]; omega
  have hroot : (MerkleTree.mk h.id L).root h = some a.header.root := by
    rw [← k4, Body.root, hb, mkBody_hashFields, enumFrom_snd]
  set pre := c.dom .serverCertCommitment ++ ([alg] ++ uleb rt.length) with hpre
  have hj : L[3]? = some (h.hash (pre ++ rt)) := by
    simp [hL, hFD, fieldList, FieldData.preimage, FieldData.tag, FieldData.bcs,
      ServerCertCommitment.bcs, TypedHash.bcs, bcsBytes, hpre]
  have hfc : 4 ≤ a.body.fieldCount := by unfold Body.fieldCount; omega
  have hg := graft_verify checked (MerkleTree.mk h.id L) h a.header.root alg l pad d 3 pre rt
    (by rw [Ne, ← List.length_eq_zero_iff, hllen]; omega)
    (by simp only; omega) hroot hj hF hrt
  refine ⟨⟨a.signature, a.header, ⟨mkBody (2 ^ d * (2 * 3 + 1)) vk ci ek cc es ts,
    ⟨alg, 2 ^ (d + 1) * L.length, helperNodes h.hash d (l ++ pad) (List.range l.length) ++
      pre :: helperNodes h.hash (treeDepth L.length) L [3]⟩⟩⟩,
    ⟨a.signature, a.header, mkBody (2 ^ d * (2 * 3 + 1)) vk ci ek cc es ts⟩, ?_, rfl, rfl, ?_, ?_, ?_,
    rfl, rfl, rfl, rfl, numbered_data _ _, numbered_data _ _⟩
  · unfold AttestationProof.verify BodyProof.verify
    rw [hsv]
    simp only [hhash, halg, hh]
    rw [hdom, mkBody_hashFields, hg]
    have : sv vk a.header.bcs a.signature.data = true := by rw [← hvk, k3]; exact hok
    simp only [mkBody, this, if_true]
  · have hLN : ∀ x ∈ L, x.length ≤ N := by
      intro x hx
      obtain ⟨f, -, rfl⟩ := List.mem_map.1 hx
      exact (hN _).le
    intro x hx
    rcases List.mem_append.1 hx with hx | hx
    · exact (helperNodes_len (fun y => (hN y).le) d _ _ (fun y hy => (hall y hy).le) x hx).trans hN64
    · rcases List.mem_cons.1 hx with rfl | hx
      · rw [hpre, hrl]
        simp only [List.length_append, hd, List.length_singleton]
        have : (uleb N).length = 1 := by
          rw [uleb.eq_def]; simp [show N < 128 by omega]
        omega
      · exact (helperNodes_len (fun y => (hN y).le) _ _ _ hLN x hx).trans hN64
  · simp only [hLlen]
    calc 2 ^ (d + 1) * a.body.fieldCount ≤ 2 ^ 30 * 2 ^ 32 :=
          Nat.mul_le_mul (Nat.pow_le_pow_right (by norm_num) (by omega)) hcount
      _ < 2 ^ 64 := by norm_num
  · intro f hf
    simp only [mkBody_fields] at hf
    have := List.mem_map_of_mem (f := (·.1)) hf
    rw [enumFrom_fst, List.mem_range'] at this
    obtain ⟨i, hi, he⟩ := this
    have hlen : (fieldList vk ci ek cc es ts).length = m := by rw [← hllen, hl, List.length_map]
    rw [hlen] at hi
    rw [he]
    omega

end Tlsn
