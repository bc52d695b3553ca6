import Verif.Protocol.Props
import Verif.Attestation.PresentationProps

/-! # From the session to the presentation

The parts together: the notary is the verifier of a session, attests to what it got, and a third party verifies a
presentation of the attestation. -/

namespace Tlsn.Protocol

/-- What the notary puts into an attestation: the time, the version and the lengths of the session, the server's
ephemeral key and the commitments of the verifier's output.  crates/examples/attestation/prove.rs:321-382, where the
lengths are cast to `u32`. -/
def notaryOps (tls : SessionView) (version : TlsVersion) (key : ServerEphemKey) (out : VerifierOutput) : List AttBuilderOp :=
  [.connectionInfo ⟨tls.time, version,
      ⟨(collectCiphertext tls.sent).length % 2 ^ 32, (collectCiphertext tls.recv).length % 2 ^ 32⟩⟩,
    .serverEphemeralKey key, .transcriptCommitments out.commitments]

/-- A session of the notary with any prover, up to the attestation: the calls that were made, the output that is
attested (that of call `i`), and the request for the attestation, which the prover chooses.
crates/examples/attestation/prove.rs:283-394 -/
structure NotaryRun where
  env : Env
  keys : KeyBytes
  vm : ZkVm
  calls : List VCall
  i : Nat
  out : VerifierOutput
  version : TlsVersion
  key : ServerEphemKey
  config : AttestationConfig
  request : Request
  uid : Vector Byte 16
  attestation : Attestation

/-- The data of the session. -/
def NotaryRun.data (s : NotaryRun) : Transcript := sessionData s.env.aes s.keys s.env.tls

/-- The session took place. -/
structure NotaryRun.Valid (c : CryptoProvider) (s : NotaryRun) : Prop where
  keys : HoldsKeys s.vm s.env.keys s.keys
  tls : WellFormed s.env.tls
  calls : WellFormedCalls s.calls
  output : ((VState.committed s.vm).run s.env s.calls).2[s.i]? = some (.output s.out)
  key : s.env.tls.binding = some s.key
  built : NotaryBuilds c s.config s.request (notaryOps s.env.tls s.version s.key s.out) s.uid s.attestation
  representable : s.attestation.body.Representable

/-- The hash functions that the circuits compute are those of the provider. -/
def SameHashes (hc : HashCircuits) (provider : HashProvider) : Prop :=
  ∀ a f, hc a = some f → ∃ h, provider a = some h ∧ h.id = a ∧ ∀ m, h.hash m = (f m).toList

theorem commits_honest {hc : HashCircuits} {provider : HashProvider} (hh : SameHashes hc provider) {data : Transcript}
    {q : Direction × RangeSet × HashAlgId} {c : PlaintextHash} (h : Commits hc data q c) :
    ∃ s, HonestCommitment provider data s c := by
  obtain ⟨f, msg, bl, h1, h2, h3, rfl⟩ := h
  obtain ⟨g, g1, g2, g3⟩ := hh _ _ h1
  exact ⟨⟨q.1, q.2.1, q.2.2, ⟨bl.toArray, by simpa using h3⟩⟩, g, msg, g1, h2, by simp [g2, g3]⟩

/-- **C100** (partial) What a third party learns from a presentation that verifies under the notary's key.  The notary
verified any number of sessions with provers of any kind and signed nothing but the attestations for them.  Then there is
one of these sessions such that the presentation shows its time and version, each transcript it shows has the
session's lengths (as 32-bit numbers) and the session's bytes at every authenticated position, and each name
it shows is one for which a certificate chain and a signature of the session's ephemeral key verify; or
a collision of a hash function exists.

Missing: a presentation whose proof states another number of fields than were signed, or contains a field
beyond that number; with these the claim is false (`C20_forged_presentation`). -/
theorem C100_presentation_partial (checked : Bool) (p : Presentation) (c v : CryptoProvider) (k : VerifyingKey)
    (sessions : List NotaryRun) (out : PresentationOutput)
    (hp : ProviderOk c.hash) (hhash : v.hash = c.hash) (hdom : v.dom = c.dom) (hd : DomainsOk c.dom)
    (hout : ∀ alg h, c.hash alg = some h → ∃ N, OutLen N h)
    (hcirc : ∀ s ∈ sessions, SameHashes s.env.hc c.hash)
    (hk : OnlySigned v k (sessions.map (·.attestation.header)))
    (hs : ∀ s ∈ sessions, s.Valid c)
    (hver : p.attestation.header.version < 2 ^ 32) (hrep : out.attestation.body.Representable)
    (hn : ∀ s ∈ sessions, s.attestation.header = p.attestation.header →
      p.attestation.body.proof.leafCount = s.attestation.body.fieldCount)
    (hin : checked = true ∨ ∀ f ∈ out.attestation.body.fields, f.1 < p.attestation.body.proof.leafCount)
    (hv : p.verify checked v = .ok out) (hkey : out.attestation.body.verifyingKey.data = k) :
    (∃ s ∈ sessions, out.connectionInfo.time = s.env.tls.time ∧ out.connectionInfo.version = s.version ∧
      (∀ pt, out.transcript = some pt → Truthful s.data pt ∧
        pt.sent.length = s.data.sent.length % 2 ^ 32 ∧ pt.received.length = s.data.received.length % 2 ^ 32) ∧
      (∀ name, out.serverName = some name → ∃ (hsd : HandshakeData) (key : ServerEphemKey), s.env.tls.binding = some key ∧
        hsd.verify v.cert s.env.tls.time key name = .ok ())) ∨
    ∃ alg h, v.hash alg = some h ∧ Collision h := by
  rcases C23_issued checked p c v k (sessions.map (·.attestation)) out hp hhash hdom hd hout
    (by rw [List.map_map]; exact hk) (by
      intro a ha
      obtain ⟨s, h1, rfl⟩ := List.mem_map.1 ha
      exact ⟨(hs s h1).representable, _, _, _, _, (hs s h1).built⟩) hver hrep (by
      intro a ha
      obtain ⟨s, h1, rfl⟩ := List.mem_map.1 ha
      exact hn s h1) hin hv hkey with ⟨a, ha, -, hsaid⟩ | h
  swap
  · exact .inr h
  obtain ⟨s, hmem, rfl⟩ := List.mem_map.1 ha
  have hval := hs s hmem
  obtain ⟨_, _, -, -, -, b1, b2, -, -, b3, -⟩ := C54_contents _ _ _ _ _ _ hval.built
  have b1 : (⟨s.env.tls.time, s.version, ⟨(collectCiphertext s.env.tls.sent).length % 2 ^ 32,
      (collectCiphertext s.env.tls.recv).length % 2 ^ 32⟩⟩ : ConnectionInfo) = _ := Option.some.inj b1
  have b2 : s.key = _ := Option.some.inj b2
  replace b3 : s.attestation.body.transcriptCommitments.map (·.data) = s.out.commitments := b3
  obtain ⟨_, msg, certs, -, -, -, -, -, htrue⟩ := C95_every_output s.env s.keys s.vm hval.keys hval.tls s.calls hval.calls
    s.i s.out hval.output
  obtain ⟨h1, h2, -, h4, h5⟩ := (C23_verify_iff checked p v out).1 hv
  by_cases hcol : ∃ alg h, v.hash alg = some h ∧ Collision h
  · exact .inr hcol
  left
  have hci : out.connectionInfo = s.attestation.body.connectionInfo.data := h2.trans hsaid.connectionInfo
  refine ⟨s, hmem, by rw [hci, ← b1], by rw [hci, ← b1], fun pt hpt => ?_, fun name hname => ?_⟩
  · cases htr : p.transcript with
    | none => rw [htr] at h5; rw [h5] at hpt; cases hpt
    | some tp =>
      rw [htr] at h5
      obtain ⟨t', h6, h7⟩ := h5
      rw [h6] at hpt
      obtain rfl := Option.some.inj hpt
      obtain ⟨-, g1, g2, -⟩ := (C09_verify_iff _ _ _ _ _).1 h7
      rw [hsaid.connectionInfo, ← b1] at g1 g2
      refine ⟨?_, by rw [NotaryRun.data, sent_length_eq]; exact g1, by rw [NotaryRun.data, recv_length_eq]; exact g2⟩
      refine (C10_binding tp v.hash _ _ s.data t' (by rw [hhash]; exact hp) ?_ h7).resolve_right hcol
      intro x hx
      obtain ⟨f, hf, rfl⟩ := List.mem_map.1 hx
      have hx' := hsaid.transcriptCommitments f hf
      rw [b3] at hx'
      obtain ⟨n, hn'⟩ := List.getElem?_of_mem hx'
      have hlen := htrue.hashes.1
      have hlt : n < msg.request.hashes.length := by
        rw [hlen]; exact (List.getElem?_eq_some_iff.1 hn').1
      rw [hhash]
      exact commits_honest (hcirc s hmem) (htrue.hashes.2 n _ _ (List.getElem?_eq_getElem hlt) hn')
  · cases hid : p.identity with
    | none => rw [hid] at h4; rw [h4] at hname; cases hname
    | some ip =>
      rw [hid] at h4
      obtain ⟨name', h6, h7⟩ := h4
      rw [h6] at hname
      obtain rfl := Option.some.inj hname
      obtain ⟨-, -, h8⟩ := (C23_identity_iff _ _ _ _ _ _).1 h7
      rw [hsaid.connectionInfo, hsaid.serverEphemeralKey, ← b1, ← b2] at h8
      exact ⟨_, s.key, hval.key, h8⟩

/-- **C101** Honest parties from end to end.  The prover proves a statement of its session and the notary accepts it; the
prover asks for an attestation with the secrets it got, the notary attests to its output; from any selection of the
committed data the prover builds a presentation.  Then it verifies for everybody, and shows the server's name and exactly
the selected bytes of the session. -/
theorem C101_end_to_end (checked : Bool) (c v : CryptoProvider) (env : Env) (k : KeyBytes) (certs : CertVerifier)
    (hcerts : env.certs = some certs) (hw : WellFormed env.tls) (name : ServerName) (hsd : HandshakeData) (r : Round)
    (hr : Provable env (sessionData env.aes k env.tls) certs name hsd r.config)
    (hdec : r.decide r.config.toRequest = none) (vp : ZkVm) (hkp : HoldsKeys vp env.keys k)
    (hcirc : SameHashes env.hc c.hash)
    (hp : ProviderOk c.hash) (hhash : v.hash = c.hash) (hdom : v.dom = c.dom) (hsig : SignaturesAccepted c v)
    (hlen : (sessionData env.aes k env.tls).sent.length < 2 ^ 32 ∧ (sessionData env.aes k env.tls).received.length < 2 ^ 32)
    (key : ServerEphemKey) (_hbind : env.tls.binding = some key)
    (hcert : hsd.verify v.cert env.tls.time key name = .ok ()) (version : TlsVersion) :
    ∃ vpEnd, proverAfter env (sessionData env.aes k env.tls) (some vp) [r] = some vpEnd ∧
      ∀ vv : ZkVm, HoldsKeys vv env.keys k → InStep vv.fill vp vv → Agree vp vv →
        (∀ a < vpEnd.mem.length, some (vv.fill a) = vpEnd.mem[a]?) →
        ∃ pout vout, (rounds env name hsd (sessionData env.aes k env.tls) (some vp, .committed vv) [r]).2 =
            [(.proved pout, .output vout)] ∧
          RoundOk env.hc (sessionData env.aes k env.tls) name r (.proved pout, .output vout) ∧
          ∀ (rc : RequestConfig) (blinder : Blinder) (req : Request) (secrets : Secrets) (config : AttestationConfig)
            (uid : Vector Byte 16) (a : Attestation) (bops : List BuilderOp) (cover : CoverFn) (tp : TranscriptProof),
            CoverContract cover →
            RequestBuilder.build ⟨rc, some name, some hsd, some (sessionData env.aes k env.tls), pout.commitments,
              pout.secrets⟩ c blinder = .ok (req, secrets) →
            NotaryBuilds c config req (notaryOps env.tls version key vout) uid a → a.body.fieldCount ≤ 2 ^ 32 →
            (runBuilder (sessionData env.aes k env.tls) pout.secrets bops).build cover = .ok tp →
            ∃ p out, ((({} : PresentationBuilder).identityProof
                ⟨secrets.serverName, secrets.serverCertOpening⟩).transcriptProof tp).build v a = .ok p ∧
              p.verify checked v = .ok out ∧ out.serverName = some name ∧ out.connectionInfo.time = env.tls.time ∧
              ∃ pt, out.transcript = some pt ∧
                Redacts (sessionData env.aes k env.tls) (runBuilder (sessionData env.aes k env.tls) pout.secrets bops).query pt := by
  obtain ⟨vpEnd, h1, h2⟩ := C96_all_rounds env k certs hcerts hw name hsd [r] (by simpa using hr) vp hkp
  refine ⟨vpEnd, h1, fun vv hkv hst hag hF => ?_⟩
  obtain ⟨vvEnd, -, h4⟩ := h2 vv hkv hst hag hF
  have hlen1 := h4.1
  generalize (rounds env name hsd (sessionData env.aes k env.tls) (some vp, .committed vv) [r]).2 = res at *
  obtain ⟨x, rfl⟩ : ∃ x, res = [x] := List.length_eq_one_iff.1 (by rw [← hlen1]; rfl)
  have hok := h4.2 0 r x rfl rfl
  have h5 := hok
  simp only [RoundOk, hdec] at h5
  obtain ⟨pout, vout, rfl, -, -, -, g1, g2, g3, g4⟩ := h5
  refine ⟨pout, vout, rfl, hok, ?_⟩
  intro rc blinder req secrets config uid a bops cover tp hcover hreq ha hcount htp
  obtain ⟨hh, hd', q1, q2, q3, q4, -, -, -, -, q5, -, q6⟩ := (C56_request_contents _ _ _ _ _).1 hreq
  simp only [Option.some.injEq] at q2 q3 q4 q6
  subst q2
  obtain ⟨_, _, -, -, -, b1, b2, -, -, b3, -⟩ := C54_contents _ _ _ _ _ _ ha
  have b1 : (⟨env.tls.time, version, ⟨(collectCiphertext env.tls.sent).length % 2 ^ 32,
      (collectCiphertext env.tls.recv).length % 2 ^ 32⟩⟩ : ConnectionInfo) = _ := Option.some.inj b1
  have b2 : key = _ := Option.some.inj b2
  replace b3 : a.body.transcriptCommitments.map (·.data) = vout.commitments := b3
  obtain ⟨p, out, k1, k2, k3, k4, k5, pt, k6, k7⟩ := C23_complete checked c v _ blinder req secrets config _ uid a bops cover
    hcover tp hp hhash hdom hsig hreq ha hcount (by rw [← q4]; exact hlen) (by
      rw [← b1, ← q4]
      have e1 := sent_length_eq env.aes k env.tls
      have e2 := recv_length_eq env.aes k env.tls
      simp only [Transcript.length, ← e1, ← e2, Nat.mod_eq_of_lt hlen.1, Nat.mod_eq_of_lt hlen.2]) (by
      intro s hs
      rw [q6] at hs
      obtain ⟨n, hn⟩ := List.getElem?_of_mem hs
      have hlt : n < r.config.toRequest.hashes.length := by rw [← g3]; exact (List.getElem?_eq_some_iff.1 hn).1
      obtain ⟨w1, f, msg, w2, w3, w4⟩ := g4 n _ (List.getElem?_eq_getElem hlt)
      rw [hn] at w1
      obtain rfl := Option.some.inj w1
      have hm := List.mem_of_getElem? w4
      rw [← g1, ← b3] at hm
      obtain ⟨fd, hfd, he⟩ := List.mem_map.1 hm
      obtain ⟨h, o1, o2, o3⟩ := hcirc _ _ w2
      exact ⟨fd, hfd, h, msg, o1, by rw [← q4]; exact w3, by rw [he, o2, o3]⟩)
    (by rw [← q4, q6]; exact htp) (by rw [q5, ← b1, ← b2, ← q3]; exact hcert)
  refine ⟨p, out, k1, k2, k5, by rw [k4, ← b1], pt, k6, ?_⟩
  rw [← q4, q6] at k7
  exact k7

/-! ## Example -/

/-- The provider of the examples, with the hash function of the circuits. -/
def exCrypto : CryptoProvider :=
  { exProvider with hash := fun a => (exCircuits a).map fun f => ⟨a, fun m => (f m).toList⟩ }

theorem exCrypto_ok : ProviderOk exCrypto.hash ∧ SignaturesAccepted exCrypto exCrypto ∧
    SameHashes exCircuits exCrypto.hash := by
  refine ⟨fun a h ha => ?_, exProvider_ok.2, fun a f hf => ⟨⟨a, fun m => (f m).toList⟩, by simp [exCrypto, hf], rfl, fun _ => rfl⟩⟩
  obtain ⟨f, -, rfl⟩ := Option.map_eq_some_iff.1 ha
  rfl

/-- The statement of the example. -/
def exRound : Round := ⟨exProveConfig, fun _ => Vector.replicate 16 5, fun _ => none⟩

theorem rounds_run {env : Env} {name : ServerName} {hsd : HandshakeData} {data : Transcript} {vp vv : ZkVm} {r : Round}
    {msg : ProveMsg} {x : PResult} {y : VResult} (hm : proverMsg r.config name hsd data = some msg)
    (h : (rounds env name hsd data (some vp, .committed vv) [r]).2 = [(x, y)]) :
    ((VState.committed vv).run env [.verify (some msg), r.answer msg.request]).2[1]? = some y := by
  simp only [rounds, round, hm, List.cons.injEq, Prod.mk.injEq, and_true] at h
  simp only [VState.run, List.getElem?_cons_succ, List.getElem?_cons_zero]
  rw [h.2]

theorem leafCount_of_new {c : CryptoProvider} {a : Attestation} {p : AttestationProof} (h : AttestationProof.new c a = .ok p) :
    p.body.proof.leafCount = a.body.fieldCount := by
  unfold AttestationProof.new at h
  split at h
  · cases h
  · rename_i h' _
    cases e : BodyProof.new c.dom h' a.body with
    | none => rw [e] at h; cases h
    | some bp =>
      rw [e] at h
      obtain rfl := Outcome.ok.inj h
      obtain ⟨mp, e2, rfl⟩ := Option.map_eq_some_iff.1 e
      unfold MerkleTree.proof at e2
      split at e2
      · cases e2
      · split at e2
        · cases e2
        · split at e2
          · obtain rfl := Option.some.inj e2
            have := (hashFields_perm c.dom a.body h').length_eq
            simp only [List.length_map] at this ⊢
            rw [this]
            simp [Body.fields, Body.fieldCount]
            omega
          · cases e2

/-- Example for `C100_presentation_partial` and `C101_end_to_end`: a session, its attestation by a notary whose key
accepts nothing else, and a presentation of the server's name and three bytes, that meets the hypotheses of both. -/
example (uid : Vector Byte 16) : ∃ (s : NotaryRun) (v : CryptoProvider) (p : Presentation) (out : PresentationOutput)
    (pt : PartialTranscript),
    s.Valid exCrypto ∧ SameHashes s.env.hc exCrypto.hash ∧ v.hash = exCrypto.hash ∧ v.dom = exCrypto.dom ∧
    OnlySigned v ⟨1, [9]⟩ ([s].map (·.attestation.header)) ∧ p.attestation.header.version < 2 ^ 32 ∧
    out.attestation.body.Representable ∧ p.attestation.body.proof.leafCount = s.attestation.body.fieldCount ∧
    p.verify true v = .ok out ∧ out.attestation.body.verifyingKey.data = ⟨1, [9]⟩ ∧
    out.serverName = some [1, 2] ∧ out.transcript = some pt ∧ pt.authed .sent = RangeSet.ofRange 1 4 := by
  obtain ⟨vpEnd, -, h⟩ := C101_end_to_end true exCrypto exCrypto exEnv exKeyBytes exCerts rfl exTls_wf [1, 2] exHsd exRound
    (exRounds_provable exRound (by simp [exRounds, exRound])) rfl (exZkVm fun _ => 0) (exHoldsKeys _) exCrypto_ok.2.2
    exCrypto_ok.1 rfl rfl exCrypto_ok.2.1 (by decide +kernel) ⟨[4]⟩ rfl (by decide +kernel) .v12
  obtain ⟨pout, vout, hrun, hok, h⟩ := h (exZkVm fun a => vpEnd.mem.getD a 0) (exHoldsKeys _) ⟨rfl, rfl, rfl, rfl⟩
    ⟨(fun _ hm => nomatch hm), (fun _ hx => nomatch hx)⟩ (fun a ha => by
      simp only [exZkVm, List.getD_eq_getElem?_getD, List.getElem?_eq_getElem ha, Option.getD_some])
  simp only [RoundOk, exRound] at hok
  obtain ⟨_, _, heq, -, -, -, e1, e2, e3, e4⟩ := hok
  simp only [Prod.mk.injEq, PResult.proved.injEq, VResult.output.injEq] at heq
  obtain ⟨rfl, rfl⟩ := heq
  have hsec : pout.secrets = [⟨.sent, RangeSet.ofRange 1 4, 1, Vector.replicate 16 5⟩] := by
    obtain ⟨x, hx⟩ := List.length_eq_one_iff.1 e3
    have := (e4 0 _ rfl).1
    rw [hx] at this ⊢
    simpa using this
  have hcom : ∃ d, vout.commitments = [⟨.sent, RangeSet.ofRange 1 4, d⟩] := by
    obtain ⟨x, hx⟩ := List.length_eq_one_iff.1 e2
    obtain ⟨-, f, msg, -, -, this⟩ := e4 0 _ rfl
    rw [hx] at this
    rw [e1, hx]
    exact ⟨_, congrArg (fun x => [x]) (Option.some.inj this)⟩
  obtain ⟨d, hcom⟩ := hcom
  rw [hsec] at h
  let req : Request := ⟨1, 1, (ServerCertOpening.mk exHsd (Vector.replicate 16 3)).commit exDom
    ⟨1, fun m => ((exCircuits 1).getD (fun _ => Vector.replicate 32 0) m).toList⟩, []⟩
  obtain ⟨a, ha⟩ : ∃ a, NotaryBuilds exCrypto (AttestationConfig.default [1]) req (notaryOps exTls .v12 ⟨[4]⟩ vout) uid a := by
    rw [C54_builds_iff]
    · refine ⟨by simp [AttestationConfig.default, req], by simp [AttestationConfig.default, HashAlgId.sha256, req],
        ?_, rfl, rfl, ⟨_, List.mem_cons_self⟩, ⟨_, List.mem_cons_of_mem _ List.mem_cons_self⟩⟩
      intro v hv
      obtain rfl := Option.some.inj hv
      rfl
    · intro s hs m
      obtain rfl := Option.some.inj hs
      rfl
  obtain ⟨_, sg, -, q2, b0, b3, -, -, b1, b2, q3, -, -, q4⟩ := C54_contents _ _ _ _ _ a ha
  obtain rfl := Option.some.inj q2
  replace b1 : a.body.extensions.map (·.data) = [] := b1
  replace b2 : a.body.transcriptCommitments.map (·.data) = vout.commitments := b2
  have b3 : (⟨exTls.time, .v12, ⟨(collectCiphertext exTls.sent).length % 2 ^ 32,
      (collectCiphertext exTls.recv).length % 2 ^ 32⟩⟩ : ConnectionInfo) = _ := Option.some.inj b3
  rw [hcom] at b2
  have e5 : a.body.extensions = [] := List.map_eq_nil_iff.1 b1
  have hrep : a.body.Representable := by
    intro f hf
    simp only [Body.fields, e5, List.map_nil, List.append_nil, List.mem_append, List.mem_cons,
      List.not_mem_nil, or_false, List.mem_map] at hf
    rcases hf with (rfl | rfl | rfl | rfl) | ⟨g, hg, rfl⟩
    · trivial
    · simp only [FieldData.Representable, ← b3]; decide +kernel
    · trivial
    · trivial
    · have : g.data ∈ a.body.transcriptCommitments.map (·.data) := List.mem_map_of_mem hg
      rw [b2] at this
      rw [List.mem_singleton.1 this]
      intro x hx
      obtain rfl : x = (1, 4) := List.mem_singleton.1 hx
      decide
  have hcount : a.body.fieldCount ≤ 2 ^ 32 := by
    have l2 := congrArg List.length b2
    simp only [List.length_map, List.length_singleton] at l2
    simp only [Body.fieldCount, e5, l2, List.length_nil]
    decide
  obtain ⟨p, out, k0, k2, k3, -, pt, k4, k5⟩ := h { hashAlg := 1 } (Vector.replicate 16 3) req _ (AttestationConfig.default [1]) uid a
    [.reveal (RangeSet.ofRange 1 4) .sent] greedyCover
    ⟨⟨[0] ++ (exData.sent.drop 1).take 3 ++ [0], [0], RangeSet.ofRange 1 4, ∅⟩, [⟨.sent, RangeSet.ofRange 1 4, 1, Vector.replicate 16 5⟩]⟩
    greedyCover_contract rfl ha hcount (by decide +kernel)
  have hnew : AttestationProof.new exCrypto a = .ok p.attestation := by
    unfold PresentationBuilder.build at k0
    cases e : AttestationProof.new exCrypto a with
    | ok x => rw [e] at k0; obtain rfl := Outcome.ok.inj k0; rfl
    | err x => rw [e] at k0; cases k0
    | panic => rw [e] at k0; cases k0
  obtain ⟨m1, m2⟩ := (C23_verify_iff _ _ _ _).1 k2
  obtain ⟨n1, n2, -⟩ := (C22_verify_iff _ _ _ _).1 m1
  have hout : out.attestation = a := by
    obtain ⟨p', w1, w2⟩ := C21_complete true exCrypto exCrypto _ _ _ uid a ha exCrypto_ok.1 rfl rfl exCrypto_ok.2.1 hcount
    rw [hnew] at w1
    obtain rfl := Outcome.ok.inj w1
    rw [w2] at m1
    exact (Except.ok.inj m1).symm
  have hhead : p.attestation.header = a.header := by rw [← hout, n1]
  let v : CryptoProvider := { exCrypto with signature := fun _ => some fun _ m _ => decide (m = a.header.bcs) }
  obtain ⟨t, ht⟩ := Option.isSome_iff_exists.1
    (show (exData.toPartial (RangeSet.ofRange 0 2) (RangeSet.ofRange 0 1)).isSome = true by decide +kernel)
  have hmsg : proverMsg exRound.config [1, 2] exHsd exData =
      some ⟨exProveConfig.toRequest, some ([1, 2], exHsd), some t⟩ := by
    simp [proverMsg, proveRequestMsg, exRound, exProveConfig, ht]
  refine ⟨⟨exEnv, exKeyBytes, exZkVm fun a => vpEnd.mem.getD a 0, _, 1, vout, .v12, ⟨[4]⟩, _, req, uid, a⟩, v, p, out, pt,
    ⟨exHoldsKeys _, exTls_wf, ?_, rounds_run hmsg hrun, rfl, ha, hrep⟩, exCrypto_ok.2.2, rfl, rfl, ?_, ?_, by rw [hout]; exact hrep,
    leafCount_of_new hnew, ?_, ?_, k3, k4, (k5.authed .sent).trans (by decide +kernel)⟩
  · intro msg u hmem hu
    simp only [List.mem_cons, VCall.verify.injEq, Option.some.injEq, List.not_mem_nil, or_false] at hmem
    rcases hmem with rfl | h
    · obtain rfl := Option.some.inj hu
      have : (match exData.toPartial (RangeSet.ofRange 0 2) (RangeSet.ofRange 0 1) with
        | some t => decide (t.sentAuthed.endD ≤ t.sent.length ∧ t.receivedAuthed.endD ≤ t.received.length)
        | none => false) = true := by decide +kernel
      rw [ht] at this
      exact PartialTranscript.wf_iff.2 (of_decide_eq_true this)
    · cases h
  · intro alg sv m sig e1 e2
    obtain rfl := Option.some.inj e1
    exact ⟨a.header, by simp, by simpa [v] using e2⟩
  · rw [hhead, q3]; decide
  · refine (C23_verify_iff _ _ _ _).2 ⟨(C22_verify_iff _ _ _ _).2 ⟨n1, n2, _, rfl, ?_⟩, m2⟩
    simp [hhead]
  · rw [hout]; exact b0

end Tlsn.Protocol
