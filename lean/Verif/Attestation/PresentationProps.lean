import Verif.Attestation.Props

/-!
# Properties of presentations, identity proofs and requests (C20 continued, C23 – C25)
-/

namespace Tlsn

/-! ## C20, continued -/

/-- **C20** (partial) What the verification does guarantee about a proof with an arbitrary claimed number
of fields: if all hashes in the proof have the length of the hash function's output, and no hash input of
a field, signed or presented, has exactly twice that length, then everything presented was said by the
notary, or a collision exists.  Missing: the code checks neither condition, and then the claim fails
(`C20_forgery`). -/
theorem C20_contents_partial (checked : Bool) (N : Nat) (c v : CryptoProvider)
    (config : AttestationConfig) (r : Request) (ops : List AttBuilderOp) (uid : Vector Byte 16)
    (a b : Attestation) (p : AttestationProof) (h : HashAlg) (ha : NotaryBuilds c config r ops uid a)
    (hp : ProviderOk c.hash) (hh : c.hash r.hashAlg = some h)
    (hhash : v.hash = c.hash) (hdom : v.dom = c.dom) (hd : DomainsOk c.dom) (hN : OutLen N h)
    (hra : a.body.Representable) (hrb : b.body.Representable)
    (hv : p.verify checked v = .ok b) (hhead : b.header = a.header)
    (hla : ∀ f ∈ a.body.fields, (f.2.preimage c.dom).length ≠ 2 * N)
    (hlb : ∀ f ∈ b.body.fields, (f.2.preimage c.dom).length ≠ 2 * N)
    (hps : ∀ q ∈ p.body.proof.hashes, q.length = N)
    (hin : checked = true ∨ ∀ f ∈ b.body.fields, f.1 < p.body.proof.leafCount) :
    SaidBy b.body a.body ∨ Collision h := by
  obtain ⟨hh', sg, k1, k2, k3, -, -, -, -, -, -, -, k4, k5⟩ := C54_contents c config r ops uid a ha
  rw [hh] at k1
  obtain rfl := Option.some.inj k1
  have halg : a.header.root.alg = r.hashAlg := by
    obtain ⟨rv, -, hrv⟩ := Option.map_eq_some_iff.1 k4
    rw [← hrv]
    exact hp _ _ hh
  obtain ⟨rfl, ⟨h2, m1, m2⟩, -⟩ := (C22_verify_iff checked p v b).1 hv
  simp only at hhead hrb hin hlb
  rw [hhead, halg, hhash, hh] at m1
  obtain rfl := Option.some.inj m1
  rw [hhead, hdom] at m2
  unfold Body.root at k4
  have hperm := (hashFields_perm c.dom a.body h).map (·.2)
  generalize (a.body.hashFields c.dom h).map (·.2) = L at k4 hperm
  rw [List.map_map] at hperm
  obtain ⟨fs, hfs, rfl⟩ := perm_map_exists hperm
  have hmv := C20_merkle_values_partial checked N _ h a.header.root p.body.proof
    (fs.map fun f => f.2.preimage c.dom)
    (p.body.body.fields.map fun f => (f.1, f.2.preimage c.dom)) hN
    (by rw [List.map_map]; rfl)
    (by
      intro m hm
      obtain ⟨f, hf, rfl⟩ := List.mem_map.1 hm
      exact hla f (hfs.mem_iff.1 hf))
    (by
      intro m hm
      obtain ⟨f, hf, rfl⟩ := List.mem_map.1 hm
      exact hlb f hf)
    hps k4
    (hin.imp_right fun hi => by
      intro x hx
      obtain ⟨f, hf, rfl⟩ := List.mem_map.1 hx
      exact hi f hf)
    (by rw [List.map_map]; exact m2)
  rcases hmv with hmv | hcol
  · left
    refine saidBy_of_preimages hd hra hrb fun f hf => ?_
    have := hmv _ (List.mem_map_of_mem hf)
    obtain ⟨g, hg, he⟩ := List.mem_map.1 this
    exact ⟨g, hfs.mem_iff.1 hg, he.symm⟩
  · exact .inr hcol

/-! ## C24: handshake data -/

/-- **C24** The handshake data verifies exactly if: the given server key is the one in it, there is a
certificate, it parses, its path is valid at the given time, the name is one of its names, and its key
signed the concatenation of the client random, the server random and the encoded server key. -/
theorem C24_verify_iff (d : HandshakeData) (v : CertVerifier) (time : Nat) (key : ServerEphemKey)
    (name : ServerName) :
    d.verify v time key name = .ok () ↔ key = d.serverEphemeralKey ∧
      ∃ cert chain, d.certs = cert :: chain ∧ v.parses cert = true ∧ v.path cert chain time = true ∧
        v.nameOk cert name = true ∧
        v.sigOk cert d.sigAlg (d.clientRandom.toList ++ d.serverRandom.toList ++
          ([3, 0, 23, UInt8.ofNat key.key.length] ++ key.key)) d.sig = true := by
  unfold HandshakeData.verify
  by_cases hk : key = d.serverEphemeralKey
  · rw [if_neg (not_not.2 hk)]
    cases hc : d.certs with
    | nil => simp
    | cons cert chain =>
      simp only [List.cons.injEq, hk, true_and]
      have hm : d.clientRandom.toList ++ (d.serverRandom.toList ++ d.serverEphemeralKey.kxParams) =
          d.clientRandom.toList ++ d.serverRandom.toList ++
          ([3, 0, 23, UInt8.ofNat d.serverEphemeralKey.key.length] ++ d.serverEphemeralKey.key) := by
        simp [ServerEphemKey.kxParams]
      rw [hm]
      unfold CertVerifier.verifyServerCert
      constructor
      · intro h
        refine ⟨cert, chain, ⟨rfl, rfl⟩, ?_⟩
        cases h1 : v.parses cert <;> simp [h1] at h
        cases h2 : v.path cert chain time <;> simp [h2] at h
        cases h3 : v.nameOk cert name <;> simp [h3] at h
        simp [h]
      · rintro ⟨_, _, ⟨rfl, rfl⟩, h1, h2, h3, h4⟩
        simp at h4
        simp [h1, h2, h3, h4]
  · rw [if_pos hk]
    simp [hk]

/-- **C24** The signed message determines the randoms and the server key: a signature made for one
handshake is not valid data for a handshake with another random or key. -/
theorem C24_message_binds (cr cr' sr sr' : Vector Byte 32) (k k' : ServerEphemKey)
    (h : cr.toList ++ (sr.toList ++ k.kxParams) = cr'.toList ++ (sr'.toList ++ k'.kxParams)) :
    cr = cr' ∧ sr = sr' ∧ k = k' := by
  obtain ⟨h1, h2⟩ := List.append_inj h (by simp)
  obtain ⟨h3, h4⟩ := List.append_inj h2 (by simp)
  refine ⟨Vector.toList_inj.1 h1, Vector.toList_inj.1 h3, ?_⟩
  obtain ⟨k⟩ := k
  obtain ⟨k'⟩ := k'
  simp only [ServerEphemKey.kxParams, List.cons_append, List.nil_append, List.cons.injEq, true_and]
    at h4
  rw [h4.2]

/-- Example for C24: verifying handshake data. -/
example : (HandshakeData.mk [[1], [2]] .ed25519 [7] (Vector.replicate 32 0) (Vector.replicate 32 1)
    ⟨[4, 5]⟩).verify ⟨fun c => c == [1], fun _ is t => is == [[2]] && t == 10, fun _ n => n == [42],
      fun _ _ m s => s == [7] && m.length == 70⟩ 10 ⟨[4, 5]⟩ [42] = .ok () := rfl

/-! ## C23: presentations -/

/-- **C23** An identity proof verifies exactly if its opening hashes to the attested commitment and the
opened handshake data verifies for the attested time and server key and the claimed name, which is then
the result. -/
theorem C23_identity_iff (p : ServerIdentityProof) (c : CryptoProvider) (time : Nat)
    (key : ServerEphemKey) (commitment : ServerCertCommitment) (name : ServerName) :
    p.verify c time key commitment = .ok name ↔ name = p.name ∧
      (∃ h, c.hash commitment.hash.alg = some h ∧
        commitment.hash.value = h.hash (p.opening.preimage c.dom)) ∧
      p.opening.data.verify c.cert time key name = .ok () := by
  unfold ServerIdentityProof.verify
  cases h1 : c.hash commitment.hash.alg with
  | none => simp
  | some h =>
    simp only [Option.some.injEq, exists_eq_left']
    by_cases h2 : commitment.hash.value = h.hash (p.opening.preimage c.dom)
    · rw [if_neg (not_not.2 h2)]
      cases h3 : p.opening.data.verify c.cert time key p.name with
      | error e =>
        simp only [reduceCtorEq, false_iff]
        rintro ⟨rfl, _, h4⟩
        rw [h3] at h4; cases h4
      | ok u =>
        simp only [Except.ok.injEq]
        constructor
        · rintro rfl; exact ⟨rfl, h2, h3⟩
        · rintro ⟨rfl, _⟩; rfl
    · rw [if_pos h2]
      simp [h2]

/-- **C23** A presentation verifies exactly if the attestation proof verifies and each part that is
present verifies against the attested body: the identity proof against the attested time, server key and
certificate commitment, the transcript proof against the attested length and commitments.  The output
contains the server name and the transcript exactly for the parts that are present, and the connection
information and extensions of the verified body. -/
theorem C23_verify_iff (checked : Bool) (p : Presentation) (c : CryptoProvider)
    (out : PresentationOutput) :
    p.verify checked c = .ok out ↔
      p.attestation.verify checked c = .ok out.attestation ∧
      out.connectionInfo = out.attestation.body.connectionInfo.data ∧
      out.extensions = out.attestation.body.extensions.map (·.data) ∧
      (match p.identity with
        | none => out.serverName = none
        | some ip => ∃ name, out.serverName = some name ∧
            ip.verify c out.attestation.body.connectionInfo.data.time
              out.attestation.body.serverEphemeralKey.data
              out.attestation.body.certCommitment.data = .ok name) ∧
      (match p.transcript with
        | none => out.transcript = none
        | some tp => ∃ t, out.transcript = some t ∧
            tp.verify c.hash out.attestation.body.connectionInfo.data.transcriptLength
              (out.attestation.body.transcriptCommitments.map (·.data)) = .ok t) := by
  obtain ⟨oa, on, oc, ot, oe⟩ := out
  unfold Presentation.verify
  cases h1 : p.attestation.verify checked c with
  | error e => simp
  | ok a =>
    simp only [Except.ok.injEq]
    cases hi : p.identity with
    | none =>
      cases ht : p.transcript with
      | none =>
        simp only [verifyIdentity, verifyTranscript, Outcome.ok.injEq, PresentationOutput.mk.injEq]
        constructor
        · rintro ⟨rfl, rfl, rfl, rfl, rfl⟩; simp
        · rintro ⟨rfl, rfl, rfl, rfl, rfl⟩; simp
      | some tp =>
        simp only [verifyIdentity, verifyTranscript]
        cases h3 : tp.verify c.hash a.body.connectionInfo.data.transcriptLength
          (a.body.transcriptCommitments.map (·.data)) with
        | ok t =>
          simp only [Outcome.bind_ok, Outcome.ok.injEq, PresentationOutput.mk.injEq]
          constructor
          · rintro ⟨rfl, rfl, rfl, rfl, rfl⟩; simp [h3]
          · rintro ⟨rfl, rfl, rfl, rfl, t', rfl, h4⟩
            rw [h3] at h4; cases h4; simp
        | err e =>
          simp only [Outcome.bind_err, reduceCtorEq, false_iff]
          rintro ⟨rfl, rfl, rfl, rfl, t', rfl, h4⟩
          rw [h3] at h4; cases h4
        | panic =>
          simp only [Outcome.bind_panic, reduceCtorEq, false_iff]
          rintro ⟨rfl, rfl, rfl, rfl, t', rfl, h4⟩
          rw [h3] at h4; cases h4
    | some ip =>
      simp only [verifyIdentity]
      cases h2 : ip.verify c a.body.connectionInfo.data.time a.body.serverEphemeralKey.data
          a.body.certCommitment.data with
      | error e =>
        simp only [Except.map, reduceCtorEq, false_iff]
        rintro ⟨rfl, rfl, rfl, ⟨n, rfl, h4⟩, _⟩
        rw [h2] at h4; cases h4
      | ok n =>
        simp only [Except.map]
        cases ht : p.transcript with
        | none =>
          simp only [verifyTranscript, Outcome.ok.injEq, PresentationOutput.mk.injEq]
          constructor
          · rintro ⟨rfl, rfl, rfl, rfl, rfl⟩; simp [h2]
          · rintro ⟨rfl, rfl, rfl, ⟨n', rfl, h4⟩, rfl⟩
            rw [h2] at h4; cases h4; simp
        | some tp =>
          simp only [verifyTranscript]
          cases h3 : tp.verify c.hash a.body.connectionInfo.data.transcriptLength
            (a.body.transcriptCommitments.map (·.data)) with
          | ok t =>
            simp only [Outcome.bind_ok, Outcome.ok.injEq, PresentationOutput.mk.injEq]
            constructor
            · rintro ⟨rfl, rfl, rfl, rfl, rfl⟩; simp [h3, h2]
            · rintro ⟨rfl, rfl, rfl, ⟨n', rfl, h5⟩, t', rfl, h4⟩
              rw [h3] at h4; cases h4
              rw [h2] at h5; cases h5; simp
          | err e =>
            simp only [Outcome.bind_err, reduceCtorEq, false_iff]
            rintro ⟨rfl, rfl, rfl, _, t', rfl, h4⟩
            rw [h3] at h4; cases h4
          | panic =>
            simp only [Outcome.bind_panic, reduceCtorEq, false_iff]
            rintro ⟨rfl, rfl, rfl, _, t', rfl, h4⟩
            rw [h3] at h4; cases h4

/-- **C23** Verification of a presentation never panics. -/
theorem C23_no_panic (checked : Bool) (p : Presentation) (c : CryptoProvider) :
    p.verify checked c ≠ .panic := by
  unfold Presentation.verify
  split
  · simp
  · split
    · simp
    · rename_i a _ _ _ _
      split
      · simp
      · rename_i h
        unfold verifyTranscript at h
        split at h
        · cases h
        · rename_i tp _
          cases h2 : tp.verify c.hash a.body.connectionInfo.data.transcriptLength
            (a.body.transcriptCommitments.map (·.data)) with
          | ok t => rw [h2] at h; cases h
          | err e => rw [h2] at h; cases h
          | panic => exact absurd h2 (C09_verify_no_panic _ _ _ _)
      · simp

/-- **C23** Soundness of the parts.  Suppose the verified body says nothing else than the attested body
`a` (see `C22_body_bound`), the notary's transcript commitments are honest commitments of the transcript
`t`, and the commitment to the certificate is that of the handshake data of the session.  Then a verified
presentation shows the attested connection information, only attested extensions, only bytes of `t` with
the attested lengths, and only names for which the session's own handshake data verifies at the attested
time with the attested server key; or a hash collision exists. -/
theorem C23_sound (checked : Bool) (p : Presentation) (v : CryptoProvider) (out : PresentationOutput)
    (a : Body) (t : Transcript) (session : ServerCertOpening) (alg : HashAlgId) (h : HashAlg)
    (hp : ProviderOk v.hash) (hv : p.verify checked v = .ok out)
    (hsaid : SaidBy out.attestation.body a)
    (hcs : ∀ f ∈ a.transcriptCommitments, ∃ s, HonestCommitment v.hash t s f.data)
    (hh : v.hash alg = some h) (hcc : a.certCommitment.data = session.commit v.dom h) :
    (out.connectionInfo = a.connectionInfo.data ∧
      (∀ e ∈ out.extensions, e ∈ a.extensions.map (·.data)) ∧
      (∀ pt, out.transcript = some pt → Truthful t pt ∧
        pt.sent.length = a.connectionInfo.data.transcriptLength.sent ∧
        pt.received.length = a.connectionInfo.data.transcriptLength.received) ∧
      (∀ name, out.serverName = some name →
        session.data.verify v.cert a.connectionInfo.data.time a.serverEphemeralKey.data name = .ok ())) ∨
    ∃ alg' h', v.hash alg' = some h' ∧ Collision h' := by
  by_cases hcol : ∃ alg' h', v.hash alg' = some h' ∧ Collision h'
  · exact .inr hcol
  left
  obtain ⟨-, h2, h3, h4, h5⟩ := (C23_verify_iff checked p v out).1 hv
  refine ⟨h2.trans hsaid.connectionInfo, ?_, ?_, ?_⟩
  · intro e he
    rw [h3, List.mem_map] at he
    obtain ⟨f, hf, rfl⟩ := he
    exact hsaid.extensions f hf
  · intro pt hpt
    cases htr : p.transcript with
    | none => rw [htr] at h5; rw [h5] at hpt; cases hpt
    | some tp =>
      rw [htr] at h5
      obtain ⟨t', h6, h7⟩ := h5
      rw [hpt] at h6
      obtain rfl := Option.some.inj h6
      rw [hsaid.connectionInfo] at h7
      have hb := C10_binding tp v.hash _ _ t pt hp (by
        intro c hc
        obtain ⟨f, hf, rfl⟩ := List.mem_map.1 hc
        obtain ⟨g, hg, he⟩ := List.mem_map.1 (hsaid.transcriptCommitments f hf)
        rw [← he]
        exact hcs g hg) h7
      obtain ⟨-, l1, l2, -⟩ := (C09_verify_iff _ _ _ _ _).1 h7
      rcases hb with hb | hb
      · exact ⟨hb, l1, l2⟩
      · exact absurd hb hcol
  · intro name hname
    cases hid : p.identity with
    | none => rw [hid] at h4; rw [h4] at hname; cases hname
    | some ip =>
      rw [hid] at h4
      obtain ⟨n, h6, h7⟩ := h4
      rw [hname] at h6
      obtain rfl := Option.some.inj h6
      obtain ⟨-, ⟨h', k1, k2⟩, k3⟩ := (C23_identity_iff _ _ _ _ _ _).1 h7
      rw [hsaid.certCommitment, hcc] at k1 k2
      simp only [ServerCertOpening.commit] at k1 k2
      rw [hp alg h hh, hh] at k1
      obtain rfl := Option.some.inj k1
      have hpre : session.preimage v.dom = ip.opening.preimage v.dom := by
        by_contra hne
        exact hcol ⟨alg, h, hh, _, _, hne, k2⟩
      rw [opening_preimage_inj hpre, ← hsaid.connectionInfo, ← hsaid.serverEphemeralKey]
      exact k3

/-- **C23** From the notary's key to the output.  Suppose the key `k` signed only the headers of the
attestations in `issued`, each built by the notary, and the presentation's proof states the number of
fields of the attestation it is made from.  Then a verified presentation that names `k` is made from one
of the issued attestations and everything it shows was said by it, or a collision exists. -/
theorem C23_issued (checked : Bool) (p : Presentation) (c v : CryptoProvider) (k : VerifyingKey)
    (issued : List Attestation) (out : PresentationOutput)
    (hp : ProviderOk c.hash) (hhash : v.hash = c.hash) (hdom : v.dom = c.dom) (hd : DomainsOk c.dom)
    (hout : ∀ alg h, c.hash alg = some h → ∃ N, OutLen N h)
    (hk : OnlySigned v k (issued.map (·.header)))
    (hiss : ∀ a ∈ issued, a.body.Representable ∧
      ∃ config r ops uid, NotaryBuilds c config r ops uid a)
    (hver : p.attestation.header.version < 2 ^ 32) (hrep : out.attestation.body.Representable)
    (hn : ∀ a ∈ issued, a.header = p.attestation.header →
      p.attestation.body.proof.leafCount = a.body.fieldCount)
    (hin : checked = true ∨
      ∀ f ∈ out.attestation.body.fields, f.1 < p.attestation.body.proof.leafCount)
    (hv : p.verify checked v = .ok out) (hkey : out.attestation.body.verifyingKey.data = k) :
    (∃ a ∈ issued, out.attestation.header = a.header ∧ SaidBy out.attestation.body a.body) ∨
    ∃ alg h, v.hash alg = some h ∧ Collision h := by
  obtain ⟨h1, -⟩ := (C23_verify_iff checked p v out).1 hv
  have hmem := C22_header_signed checked p.attestation v k _ hk ⟨hver, by
    intro hd hm
    obtain ⟨a, ha, rfl⟩ := List.mem_map.1 hm
    obtain ⟨-, config, r, ops, uid, hb⟩ := hiss a ha
    obtain ⟨_, _, -, -, -, -, -, -, -, -, e, -⟩ := C54_contents _ _ _ _ _ _ hb
    rw [e]; norm_num⟩ out.attestation h1 hkey
  obtain ⟨a, ha, he⟩ := List.mem_map.1 hmem
  obtain ⟨hra, config, r, ops, uid, hb⟩ := hiss a ha
  obtain ⟨hh, -, k1, -⟩ := C54_contents _ _ _ _ _ _ hb
  obtain ⟨N, hN⟩ := hout _ _ k1
  have hhd : out.attestation.header = p.attestation.header := by
    obtain ⟨e, -⟩ := (C22_verify_iff checked _ _ _).1 h1
    rw [e]
  have hcnt := hn a ha (he.trans hhd)
  have := C22_body_bound checked N c v config r ops uid a out.attestation p.attestation hh hb hp k1
    hhash hdom hd hN hra hrep h1 he.symm hcnt (by rwa [hcnt] at hin)
  rcases this with h | h
  · exact .inl ⟨a, ha, he.symm, h⟩
  · exact .inr ⟨r.hashAlg, hh, by rw [hhash]; exact k1, h⟩

/-- **C23** (the code does not have the property) The forgery of `C20_forgery` carries over to
presentations: with the prepared commitment, whatever the notary attests, a presentation verifies that
shows arbitrary connection information, arbitrary extensions and, if the fake contents contain fake
commitments that a transcript proof opens, that transcript. -/
theorem C20_forged_presentation (checked : Bool) (N : Nat) (c v : CryptoProvider) (alg : HashAlgId)
    (h : HashAlg) (hp : ProviderOk c.hash) (hh : c.hash alg = some h) (hN : OutLen N h)
    (hN64 : N ≤ 64) (hd : ∀ t, (c.dom t).length = 16)
    (hhash : v.hash = c.hash) (hdom : v.dom = c.dom) (hsig : SignaturesAccepted c v)
    (vk : VerifyingKey) (ci : ConnectionInfo) (ek : ServerEphemKey) (cc : ServerCertCommitment)
    (es : List Extension) (ts : List PlaintextHash) (hm : 4 + es.length + ts.length ≤ 2 ^ 29)
    (tp : TranscriptProof) (pt : PartialTranscript)
    (htp : tp.verify v.hash ci.transcriptLength ts = .ok pt)
    (ip : ServerIdentityProof) (hip : ip.verify v ci.time ek cc = .ok ip.name) :
    ∃ fake : ServerCertCommitment, fake.hash.alg = alg ∧ fake.hash.value.length = N ∧
      ∀ config r ops uid a, r.serverCertCommitment = fake → r.hashAlg = alg →
        NotaryBuilds c config r ops uid a → a.body.verifyingKey.data = vk →
        a.body.fieldCount ≤ 2 ^ 32 →
        ∃ (p : Presentation) (out : PresentationOutput), p.verify checked v = .ok out ∧
          out.attestation.header = a.header ∧ out.attestation.signature = a.signature ∧
          out.attestation.body.verifyingKey.data = vk ∧ out.connectionInfo = ci ∧
          out.serverName = some ip.name ∧ out.transcript = some pt ∧ out.extensions = es := by
  obtain ⟨fake, f1, f2, f3⟩ := C20_forgery checked N c v alg h hp hh hN hN64 hd hhash hdom hsig vk ci
    ek cc es ts hm
  refine ⟨fake, f1, f2, ?_⟩
  intro config r ops uid a h1 h2 h3 h4 h5
  obtain ⟨p, b, g1, g2, g3, -, -, -, g4, g5, g6, g7, g8, g9⟩ := f3 config r ops uid a h1 h2 h3 h4 h5
  refine ⟨⟨p, some ip, some tp⟩, ⟨b, some ip.name, b.body.connectionInfo.data, some pt,
    b.body.extensions.map (·.data)⟩, ?_, g2, g3, g4, g5, rfl, rfl, g8⟩
  rw [C23_verify_iff]
  refine ⟨g1, rfl, rfl, ⟨ip.name, rfl, ?_⟩, pt, rfl, ?_⟩
  · simp only [g5, g6, g7]; exact hip
  · simp only [g5, g9]; exact htp

/-- **C23** Completeness of the whole protocol.  The prover builds a request from its session, the notary
builds an attestation for it with the session's server key, the transcript's length and honest
commitments for the prover's secrets, and the prover builds a presentation with an identity proof and any
transcript proof the proof builder produced.  Then the presentation verifies and shows the server name and
the redaction of the transcript to the revealed positions, if the handshake data verifies for that name. -/
theorem C23_complete (checked : Bool) (c v : CryptoProvider) (rb : RequestBuilder) (blinder : Blinder)
    (r : Request) (secrets : Secrets) (config : AttestationConfig) (ops : List AttBuilderOp)
    (uid : Vector Byte 16) (a : Attestation)
    (bops : List BuilderOp) (cover : CoverFn) (hcover : CoverContract cover) (tp : TranscriptProof)
    (hp : ProviderOk c.hash) (hhash : v.hash = c.hash) (hdom : v.dom = c.dom)
    (hsig : SignaturesAccepted c v)
    (hreq : rb.build c blinder = .ok (r, secrets))
    (ha : NotaryBuilds c config r ops uid a) (hcount : a.body.fieldCount ≤ 2 ^ 32)
    (hlen : secrets.transcript.sent.length < 2 ^ 32 ∧ secrets.transcript.received.length < 2 ^ 32)
    (htl : a.body.connectionInfo.data.transcriptLength = secrets.transcript.length)
    (hcs : ∀ s ∈ secrets.transcriptCommitmentSecrets, ∃ f ∈ a.body.transcriptCommitments,
      HonestCommitment c.hash secrets.transcript s f.data)
    (htp : (runBuilder secrets.transcript secrets.transcriptCommitmentSecrets bops).build cover = .ok tp)
    (hcert : secrets.serverCertOpening.data.verify v.cert a.body.connectionInfo.data.time
      a.body.serverEphemeralKey.data secrets.serverName = .ok ()) :
    ∃ p out, ((({} : PresentationBuilder).identityProof
        ⟨secrets.serverName, secrets.serverCertOpening⟩).transcriptProof tp).build v a = .ok p ∧
      p.verify checked v = .ok out ∧ out.attestation = a ∧
      out.connectionInfo = a.body.connectionInfo.data ∧ out.serverName = rb.serverName ∧
      ∃ pt, out.transcript = some pt ∧ Redacts secrets.transcript
        (runBuilder secrets.transcript secrets.transcriptCommitmentSecrets bops).query pt := by
  obtain ⟨ap, h1, h2⟩ := C21_complete checked c v config r ops uid a ha hp hhash hdom hsig hcount
  obtain ⟨hh, -, k1, -, -, -, -, k2, -⟩ := C54_contents c config r ops uid a ha
  -- the request
  unfold RequestBuilder.build at hreq
  cases e1 : c.hash rb.config.hashAlg with
  | none => rw [e1] at hreq; cases hreq
  | some h =>
  cases e2 : rb.serverName with
  | none => rw [e1, e2] at hreq; cases hreq
  | some name =>
  cases e3 : rb.handshakeData with
  | none => rw [e1, e2, e3] at hreq; cases hreq
  | some hd =>
  cases e4 : rb.transcript with
  | none => rw [e1, e2, e3, e4] at hreq; cases hreq
  | some t =>
  rw [e1, e2, e3, e4] at hreq
  obtain ⟨rfl, rfl⟩ := Prod.mk.inj (Except.ok.inj hreq)
  simp only at *
  rw [e1] at k1
  obtain rfl := Option.some.inj k1
  obtain ⟨pt, h3, h4⟩ := C11_build_verifies t rb.transcriptCommitmentSecrets bops cover hcover tp c.hash
    (a.body.transcriptCommitments.map (·.data)) hlen (by
      intro s hs
      obtain ⟨f, hf, hc⟩ := hcs s hs
      exact ⟨f.data, List.mem_map_of_mem hf, hc⟩) htp
  refine ⟨⟨ap, some ⟨name, ⟨hd, blinder⟩⟩, some tp⟩, ⟨a, some name, a.body.connectionInfo.data, some pt,
    a.body.extensions.map (·.data)⟩, ?_, ?_, rfl, rfl, rfl, pt, rfl, h4⟩
  · simp only [PresentationBuilder.build, h1]
    rfl
  · rw [C23_verify_iff]
    refine ⟨h2, rfl, rfl, ⟨name, rfl, ?_⟩, pt, rfl, ?_⟩
    · rw [C23_identity_iff]
      refine ⟨rfl, ⟨h, ?_, ?_⟩, hcert⟩
      · rw [k2, hhash]
        simp only [ServerCertOpening.commit]
        rw [hp _ _ e1]
        exact e1
      · rw [k2, hdom]
        rfl
    · rw [hhash, htl]; exact h3

/-- **C23** A presentation may leave out the identity proof or the transcript proof; the result of the
remaining part does not change. -/
theorem C23_parts_independent (checked : Bool) (p : Presentation) (c : CryptoProvider)
    (out : PresentationOutput) (h : p.verify checked c = .ok out) :
    (⟨p.attestation, none, p.transcript⟩ : Presentation).verify checked c =
      .ok { out with serverName := none } ∧
    (⟨p.attestation, p.identity, none⟩ : Presentation).verify checked c =
      .ok { out with transcript := none } := by
  obtain ⟨h1, h2, h3, h4, h5⟩ := (C23_verify_iff checked p c out).1 h
  constructor
  · rw [C23_verify_iff]; exact ⟨h1, h2, h3, rfl, h5⟩
  · rw [C23_verify_iff]; exact ⟨h1, h2, h3, h4, rfl⟩

/-! ## C25: validating an attestation against a request -/

/-- **C25** A request validates an attestation exactly if the algorithms are the requested ones, the
certificate commitment is the requested one, every requested extension is present, and the signature of the
header is valid for the verifying key in the body. -/
theorem C25_validate_iff (r : Request) (a : Attestation) (c : CryptoProvider) :
    r.validate a c = .ok () ↔ a.signature.alg = r.signatureAlg ∧ a.header.root.alg = r.hashAlg ∧
      a.body.certCommitment.data = r.serverCertCommitment ∧
      (∀ e ∈ r.extensions, ∃ f ∈ a.body.extensions, f.data = e) ∧
      ∃ sv, c.signature a.signature.alg = some sv ∧
        sv a.body.verifyingKey.data a.header.bcs a.signature.data = true := by
  unfold Request.validate
  by_cases h1 : a.signature.alg = r.signatureAlg
  · rw [if_neg (not_not.2 h1)]
    by_cases h2 : a.header.root.alg = r.hashAlg
    · rw [if_neg (not_not.2 h2)]
      by_cases h3 : a.body.certCommitment.data = r.serverCertCommitment
      · rw [if_neg (not_not.2 h3)]
        by_cases h4 : ∀ e ∈ r.extensions, e ∈ a.body.extensions.map (·.data)
        · rw [if_neg (not_not.2 h4)]
          have h4' : ∀ e ∈ r.extensions, ∃ f ∈ a.body.extensions, f.data = e := fun e he =>
            List.mem_map.1 (h4 e he)
          cases h5 : c.signature a.signature.alg with
          | none => simp
          | some sv =>
            cases h6 : sv a.body.verifyingKey.data a.header.bcs a.signature.data with
            | true => simp [h6]; exact ⟨h1, h2, h3, h4'⟩
            | false => simp [h6]
        · rw [if_pos h4]
          simp only [reduceCtorEq, false_iff]
          rintro ⟨_, _, _, h, _⟩
          exact h4 fun e he => List.mem_map.2 (h e he)
      · rw [if_pos h3]; simp [h3]
    · rw [if_pos h2]; simp [h2]
  · rw [if_pos h1]; simp [h1]

/-- **C25** An attestation that the notary built for the request is validated by it. -/
theorem C25_complete (c v : CryptoProvider) (config : AttestationConfig) (r : Request)
    (ops : List AttBuilderOp) (uid : Vector Byte 16) (a : Attestation)
    (h : NotaryBuilds c config r ops uid a) (hp : ProviderOk c.hash) (hsig : SignaturesAccepted c v)
    (halg : ∀ s m sig, c.signer r.signatureAlg = some s → s.sign m = some sig →
      sig.alg = r.signatureAlg) :
    r.validate a v = .ok () := by
  obtain ⟨hh, sg, k1, k2, k3, -, -, k4, k5, -, -, -, k6, k7⟩ := C54_contents c config r ops uid a h
  rw [C25_validate_iff]
  refine ⟨halg _ _ _ k2 k7, ?_, k4, ?_, ?_⟩
  · obtain ⟨rv, -, hrv⟩ := Option.map_eq_some_iff.1 k6
    rw [← hrv]
    exact hp _ _ k1
  · intro e he
    have : e ∈ a.body.extensions.map (·.data) := by rw [k5]; exact List.mem_append_left _ he
    exact List.mem_map.1 this
  · rw [k3]; exact hsig _ _ _ _ k2 k7

/-- **C25** (the code does not have the property one may expect) Validation does not connect the body to
the signed header: after validation succeeded, the connection information, the server key, the transcript
commitments and the field identifiers can be replaced by anything and the attestation still validates. -/
theorem C25_body_not_checked (r : Request) (a : Attestation) (c : CryptoProvider)
    (h : r.validate a c = .ok ()) (ci : Field ConnectionInfo) (ek : Field ServerEphemKey)
    (ts : List (Field PlaintextHash)) :
    r.validate { a with body := { a.body with
      connectionInfo := ci, serverEphemeralKey := ek, transcriptCommitments := ts } } c = .ok () := by
  rw [C25_validate_iff] at h ⊢
  exact h

/-- Example for C25: a validated attestation exists (and for `C25_complete`). -/
example (uid : Vector Byte 16) : ∃ a, exRequest.validate a exProvider = .ok () := by
  obtain ⟨a, ha⟩ := exNotary uid
  refine ⟨a, C25_complete exProvider exProvider _ _ _ _ a ha exProvider_ok.1 exProvider_ok.2 ?_⟩
  intro s m sig hs hsig
  simp only [exProvider] at hs
  split at hs
  · obtain rfl := Option.some.inj hs
    obtain rfl := Option.some.inj hsig
    rfl
  · cases hs

/-- **C56** A request is built exactly if the hash algorithm is available and the server name, handshake
data and transcript were given; it then names the configured algorithms and extensions, commits to the
given handshake data with the blinder, and the secrets hold what was given, unchanged. -/
theorem C56_request_contents (b : RequestBuilder) (c : CryptoProvider) (blinder : Blinder)
    (r : Request) (s : Secrets) :
    b.build c blinder = .ok (r, s) ↔
      ∃ h hd, c.hash b.config.hashAlg = some h ∧ b.handshakeData = some hd ∧
        b.serverName = some s.serverName ∧ b.transcript = some s.transcript ∧
        r.signatureAlg = b.config.signatureAlg ∧ r.hashAlg = b.config.hashAlg ∧
        r.extensions = b.config.extensions ∧
        r.serverCertCommitment = (ServerCertOpening.mk hd blinder).commit c.dom h ∧
        s.serverCertOpening = ⟨hd, blinder⟩ ∧
        s.transcriptCommitments = b.transcriptCommitments ∧
        s.transcriptCommitmentSecrets = b.transcriptCommitmentSecrets := by
  obtain ⟨r1, r2, r3, r4⟩ := r
  obtain ⟨s1, s2, s3, s4, s5⟩ := s
  simp only [RequestBuilder.build]
  cases h1 : c.hash b.config.hashAlg <;> cases h2 : b.serverName <;> cases h3 : b.handshakeData <;>
    cases h4 : b.transcript <;> simp
  constructor
  · rintro ⟨⟨rfl, rfl, rfl, rfl⟩, rfl, rfl, rfl, rfl, rfl⟩; simp
  · rintro ⟨rfl, rfl, rfl, rfl, rfl, rfl, rfl, rfl, rfl⟩; simp

/-! ## Examples: the hypotheses of the theorems above are met -/

/-- Handshake data for the examples. -/
def exHandshake : HandshakeData :=
  ⟨[[1]], .ed25519, [7], Vector.replicate 32 0, Vector.replicate 32 1, ⟨[4]⟩⟩

/-- A session: `[1, 2]` was sent and committed as a whole. -/
def exSession : RequestBuilder :=
  { config := { hashAlg := 1 }, serverName := some [42], handshakeData := some exHandshake
    transcript := some ⟨[1, 2], []⟩
    transcriptCommitmentSecrets := [⟨.sent, RangeSet.ofRange 0 2, 1, Vector.replicate 16 0⟩] }

/-- The request of the session. -/
def exSessionRequest : Request :=
  ⟨1, 1, (ServerCertOpening.mk exHandshake (Vector.replicate 16 3)).commit exDom toyHash, []⟩

/-- What the notary saw. -/
def exSessionOps : List AttBuilderOp :=
  [.connectionInfo ⟨5, .v12, ⟨2, 0⟩⟩, .serverEphemeralKey ⟨[4]⟩,
   .transcriptCommitments [⟨.sent, RangeSet.ofRange 0 2, ⟨1, [1, 18]⟩⟩]]

/-- Any notary run of the examples: it exists and its contents are known. -/
theorem exRun (r : Request) (hr : r.signatureAlg = 1 ∧ r.hashAlg = 1 ∧ r.extensions = [])
    (uid : Vector Byte 16) :
    ∃ a, NotaryBuilds exProvider (AttestationConfig.default [1]) r exSessionOps uid a ∧
      a.body.verifyingKey.data = ⟨1, [9]⟩ ∧ a.body.connectionInfo.data = ⟨5, .v12, ⟨2, 0⟩⟩ ∧
      a.body.serverEphemeralKey.data = ⟨[4]⟩ ∧ a.body.certCommitment.data = r.serverCertCommitment ∧
      a.body.extensions = [] ∧
      a.body.transcriptCommitments.map (·.data) =
        [⟨.sent, RangeSet.ofRange 0 2, ⟨1, [1, 18]⟩⟩] ∧
      a.body.fieldCount = 5 ∧ a.body.Representable := by
  obtain ⟨sa, ha, cc, es⟩ := r
  obtain ⟨h1, h2, h3⟩ := hr
  simp only at h1 h2 h3
  subst h1 h2 h3
  obtain ⟨a, ha⟩ : ∃ a, NotaryBuilds exProvider (AttestationConfig.default [1]) ⟨1, 1, cc, []⟩
      exSessionOps uid a := by
    rw [C54_builds_iff]
    · refine ⟨by simp [AttestationConfig.default], by simp [AttestationConfig.default, HashAlgId.sha256],
        ?_, rfl, rfl, ⟨_, List.mem_cons_self⟩, ⟨_, List.mem_cons_of_mem _ List.mem_cons_self⟩⟩
      intro v hv
      obtain rfl := Option.some.inj hv
      rfl
    · intro s hs m
      simp only [exProvider] at hs
      split at hs
      · obtain rfl := Option.some.inj hs; rfl
      · cases hs
  obtain ⟨_, sg, -, k1, k2, k3, k4, k5, k6, k7, -⟩ := C54_contents _ _ _ _ _ a ha
  obtain rfl := Option.some.inj k1
  have e1 := Option.some.inj k3
  have e2 := Option.some.inj k4
  have e3 : a.body.extensions = [] := by
    rw [← List.map_eq_nil_iff (f := (·.data)), k6]; rfl
  have e4 : a.body.transcriptCommitments.length = 1 := by
    rw [← List.length_map (f := (·.data)), k7]; rfl
  refine ⟨a, ha, k2, e1.symm, e2.symm, k5, e3, k7, by simp [Body.fieldCount, e3, e4], ?_⟩
  intro f hf
  simp only [Body.fields, e3, List.map_nil, List.append_nil, List.mem_append, List.mem_cons,
    List.not_mem_nil, or_false, List.mem_map] at hf
  rcases hf with (rfl | rfl | rfl | rfl) | ⟨g, hg, rfl⟩
  · trivial
  · simp only [FieldData.Representable, ← e1]; decide
  · trivial
  · trivial
  · have : g.data ∈ a.body.transcriptCommitments.map (·.data) := List.mem_map_of_mem hg
    rw [k7] at this
    have e5 : g.data = ⟨.sent, RangeSet.ofRange 0 2, ⟨1, [1, 18]⟩⟩ := List.mem_singleton.1 this
    rw [e5]
    intro x hx
    have : x = (0, 2) := List.mem_singleton.1 hx
    subst this
    decide

/-- Example for `C23_complete` (and `C21_complete`): a whole run of the protocol. -/
example (uid : Vector Byte 16) : ∃ a p out,
    NotaryBuilds exProvider (AttestationConfig.default [1]) exSessionRequest exSessionOps uid a ∧
    (p : Presentation).verify true exProvider = .ok out ∧ out.serverName = some [42] ∧
    ∃ pt, out.transcript = some pt ∧ pt.authed .sent = RangeSet.ofRange 0 2 := by
  obtain ⟨a, ha, -, h2, h3, -, -, h6, h7, -⟩ := exRun exSessionRequest ⟨rfl, rfl, rfl⟩ uid
  obtain ⟨p, out, k1, k2, k3, k4, k5, pt, k6, k7⟩ := C23_complete true exProvider exProvider exSession
    (Vector.replicate 16 3) exSessionRequest _ _ _ uid a
    [.reveal (RangeSet.ofRange 0 2) .sent] greedyCover greedyCover_contract
    ⟨⟨[1, 2], [], RangeSet.ofRange 0 2, ∅⟩, [⟨.sent, RangeSet.ofRange 0 2, 1, Vector.replicate 16 0⟩]⟩
    exProvider_ok.1 rfl rfl exProvider_ok.2 rfl ha (by rw [h7]; decide) (by decide)
    (by rw [h2]; rfl)
    (by
      intro s hs
      obtain rfl : s = ⟨.sent, RangeSet.ofRange 0 2, 1, Vector.replicate 16 0⟩ := by
        simpa [exSession] using hs
      have : (⟨.sent, RangeSet.ofRange 0 2, ⟨1, [1, 18]⟩⟩ : PlaintextHash) ∈
          a.body.transcriptCommitments.map (·.data) := by rw [h6]; simp
      obtain ⟨f, hf, he⟩ := List.mem_map.1 this
      refine ⟨f, hf, toyHash, [1, 2], rfl, by unfold BytesAt; decide, ?_⟩
      rw [he]
      decide)
    (by decide)
    (by rw [h2, h3]; rfl)
  exact ⟨a, p, out, ha, k2, k5, pt, k6, (k7.authed .sent).trans (by decide)⟩

/-- Example for `C20_forgery`: there is a request for which the notary of the examples issues an
attestation that is turned into a proof showing another connection time and an extension. -/
example (uid : Vector Byte 16) : ∃ (r : Request) (a : Attestation) (p : AttestationProof)
    (b : Attestation),
    NotaryBuilds exProvider (AttestationConfig.default [1]) r exSessionOps uid a ∧
    p.verify true exProvider = .ok b ∧ b.header = a.header ∧
    a.body.connectionInfo.data.time = 5 ∧ b.body.connectionInfo.data.time = 1000 ∧
    a.body.extensions.map (·.data) = [] ∧ b.body.extensions.map (·.data) = [⟨[1], [2]⟩] := by
  obtain ⟨fake, f1, f2, f3⟩ := C20_forgery true 2 exProvider exProvider 1 toyHash exProvider_ok.1 rfl
    (fun _ => rfl) (by decide) exDom_ok.1 rfl rfl exProvider_ok.2 ⟨1, [9]⟩ ⟨1000, .v12, ⟨2, 0⟩⟩ ⟨[4]⟩
    ⟨⟨1, [0, 0]⟩⟩ [⟨[1], [2]⟩] [] (by decide)
  obtain ⟨a, ha, h1, h2, -, -, h5, -, h7, -⟩ := exRun ⟨1, 1, fake, []⟩ ⟨rfl, rfl, rfl⟩ uid
  obtain ⟨p, b, g1, g2, -, -, -, -, -, g5, -, -, g8, -⟩ := f3 _ _ _ _ a rfl rfl ha h1
    (by rw [h7]; decide)
  exact ⟨_, a, p, b, ha, g1, g2, by rw [h2], by rw [g5], by rw [h5]; rfl, g8⟩

/-- Example for `C22_header_signed`, `C22_body_bound`, `C20_contents_partial` and `C23_issued`: with a
signature scheme that accepts only the header of the issued attestation, the honest proof meets all
hypotheses. -/
example (uid : Vector Byte 16) : ∃ (a : Attestation) (v : CryptoProvider) (p : AttestationProof),
    NotaryBuilds exProvider (AttestationConfig.default [1]) exSessionRequest exSessionOps uid a ∧
    v.hash = exProvider.hash ∧ v.dom = exProvider.dom ∧ OnlySigned v ⟨1, [9]⟩ [a.header] ∧
    p.verify true v = .ok a ∧ p.body.proof.leafCount = a.body.fieldCount ∧ a.body.Representable ∧
    a.body.verifyingKey.data = ⟨1, [9]⟩ ∧ a.header.version < 2 ^ 32 ∧
    (∀ f ∈ a.body.fields, (f.2.preimage v.dom).length ≠ 2 * 2) := by
  obtain ⟨a, ha, h1, -, -, -, -, -, h7, h8⟩ := exRun exSessionRequest ⟨rfl, rfl, rfl⟩ uid
  obtain ⟨hh, sg, q1, q2, -, -, -, -, -, -, q3, -, -, q4⟩ := C54_contents _ _ _ _ _ a ha
  obtain rfl := Option.some.inj q1
  obtain rfl := Option.some.inj q2
  obtain ⟨p, k1, k2⟩ := C21_complete true exProvider exProvider _ _ _ uid a ha exProvider_ok.1 rfl rfl
    exProvider_ok.2 (by rw [h7]; decide)
  refine ⟨a, { exProvider with signature := fun _ => some fun _ m _ => decide (m = a.header.bcs) }, p,
    ha, rfl, rfl, ?_, ?_, ?_, h8, h1, by rw [q3]; decide, ?_⟩
  · intro alg sv m sig e1 e2
    obtain rfl := Option.some.inj e1
    exact ⟨a.header, by simp, by simpa using e2⟩
  · obtain ⟨e, m1, m2⟩ := (C22_verify_iff _ _ _ _).1 k2
    refine (C22_verify_iff _ _ _ _).2 ⟨e, m1, _, rfl, ?_⟩
    rw [e]
    simp
  · unfold AttestationProof.new at k1
    split at k1
    · cases k1
    · rename_i h' _
      cases e : BodyProof.new exProvider.dom h' a.body with
      | none => rw [e] at k1; cases k1
      | some bp =>
        rw [e] at k1
        obtain rfl := Outcome.ok.inj k1
        obtain ⟨mp, e2, rfl⟩ := Option.map_eq_some_iff.1 e
        unfold MerkleTree.proof at e2
        split at e2
        · cases e2
        · split at e2
          · cases e2
          · split at e2
            · obtain rfl := Option.some.inj e2
              have := (hashFields_perm exProvider.dom a.body h').length_eq
              simp only [List.length_map] at this ⊢
              rw [this]
              simp [Body.fields, Body.fieldCount]
              omega
            · cases e2
  · intro f _
    have : (f.2.preimage exProvider.dom).length = 16 + f.2.bcs.length := by
      rw [FieldData.preimage, List.length_append]
      exact congrArg (· + _) (exDom_ok.1 _)
    simp only [this]
    omega

/-- Example for `C23_sound`: the output of an honest presentation without a transcript proof. -/
example : SaidBy (mkBody 0 ⟨1, [9]⟩ ⟨5, .v12, ⟨2, 0⟩⟩ ⟨[4]⟩
      ((ServerCertOpening.mk exHandshake (Vector.replicate 16 3)).commit exDom toyHash) [] [])
    (mkBody 0 ⟨1, [9]⟩ ⟨5, .v12, ⟨2, 0⟩⟩ ⟨[4]⟩
      ((ServerCertOpening.mk exHandshake (Vector.replicate 16 3)).commit exDom toyHash) [⟨[1], [2]⟩]
      [⟨.sent, RangeSet.ofRange 0 2, ⟨1, [1, 18]⟩⟩]) ∧
    HonestCommitment exProvider.hash ⟨[1, 2], []⟩ ⟨.sent, RangeSet.ofRange 0 2, 1, Vector.replicate 16 0⟩
      ⟨.sent, RangeSet.ofRange 0 2, ⟨1, [1, 18]⟩⟩ := by
  refine ⟨⟨rfl, rfl, rfl, rfl, by simp [mkBody, numbered], by simp [mkBody, numbered]⟩,
    toyHash, [1, 2], rfl, by unfold BytesAt; decide, by decide⟩

end Tlsn
