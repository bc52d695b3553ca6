import Verif.Pki.Spec
import Verif.TlsTranscript.Model

/-! # The server's certificates and its signature, C106 and C107 -/

namespace Tlsn.Pki

variable {P : WebPki} {cert message sig : Bytes} {scheme : UInt16}

theorem scheme_unique {s : UInt16} {a b : SigId} (ha : SchemeIs s a) (hb : SchemeIs s b) : a = b := by
  cases ha <;> cases hb <;> rfl

theorem verifySignature_ok {alg : RingAlg} : P.verifySignature cert alg message sig = .ok () ↔
    P.keyAlg cert = some alg.key ∧ P.raw cert alg.sig message sig = true := by
  unfold WebPki.verifySignature
  cases hk : P.keyAlg cert with
  | none => simp
  | some k =>
    by_cases h : k = alg.key
    · by_cases hr : P.raw cert alg.sig message sig = true <;> simp [h, hr]
    · simp [h]

theorem verifySignature_skip {alg : RingAlg} : P.verifySignature cert alg message sig = .error .unsupportedForKey ↔
    ∃ k, P.keyAlg cert = some k ∧ k ≠ alg.key := by
  unfold WebPki.verifySignature
  cases hk : P.keyAlg cert with
  | none => simp
  | some k =>
    by_cases h : k = alg.key
    · by_cases hr : P.raw cert alg.sig message sig = true <;> simp [h, hr]
    · simp [h]

/-- The name that is recorded for a kind of signature. -/
def nameOf : SigId → SignatureAlgorithm
  | .ecdsaSha256 => .ecdsaP256Sha256
  | .ecdsaSha384 => .ecdsaP256Sha384
  | .ed25519 => .ed25519
  | .rsaPkcs1Sha256 => .rsaPkcs1Sha256
  | .rsaPkcs1Sha384 => .rsaPkcs1Sha384
  | .rsaPkcs1Sha512 => .rsaPkcs1Sha512
  | .rsaPssSha256 => .rsaPssSha256
  | .rsaPssSha384 => .rsaPssSha384
  | .rsaPssSha512 => .rsaPssSha512

theorem fromAlg_eq (alg : RingAlg) : fromAlg alg = .ok (nameOf alg.sig) := by
  rcases alg with ⟨k, s⟩
  cases s <;> rfl

theorem verifyAny_stop {a : RingAlg} {as : List RingAlg} {e : PkiError} (h : P.verifySignature cert a message sig = .error e)
    (he : e ≠ .unsupportedForKey) : P.verifyAny cert message sig (a :: as) = .err e := by
  unfold WebPki.verifyAny
  rw [h]
  cases e <;> first | rfl | exact absurd rfl he

/-- The result of trying algorithms in order, for a key. -/
theorem verifyAny_ok {algs : List RingAlg} {alg : SignatureAlgorithm} : P.verifyAny cert message sig algs = .ok alg ↔
    ∃ pre a post, algs = pre ++ a :: post ∧ P.keyAlg cert = some a.key ∧ P.raw cert a.sig message sig = true ∧
      (∀ x ∈ pre, x.key ≠ a.key) ∧ alg = nameOf a.sig := by
  induction algs with
  | nil => simp [WebPki.verifyAny]
  | cons a as ih =>
    unfold WebPki.verifyAny
    cases hv : P.verifySignature cert a message sig with
    | ok u =>
      obtain ⟨h1, h2⟩ := verifySignature_ok.1 hv
      simp only [fromAlg_eq, Outcome.ok.injEq]
      constructor
      · rintro rfl
        exact ⟨[], a, as, rfl, h1, h2, by simp, rfl⟩
      · rintro ⟨pre, b, post, e, k1, k2, k3, rfl⟩
        cases pre with
        | nil =>
          cases e
          rfl
        | cons c pre =>
          cases e
          exact absurd (Option.some.inj (h1.symm.trans k1)) (k3 a (by simp))
    | error e =>
      by_cases he : e = .unsupportedForKey
      · subst he
        obtain ⟨k, h1, h2⟩ := verifySignature_skip.1 hv
        simp only [ih]
        constructor
        · rintro ⟨pre, b, post, rfl, k1, k2, k3, k4⟩
          refine ⟨a :: pre, b, post, rfl, k1, k2, ?_, k4⟩
          intro x hx
          rcases List.mem_cons.1 hx with rfl | hx
          · rw [← Option.some.inj (h1.symm.trans k1)]
            exact fun h => h2 h.symm
          · exact k3 x hx
        · rintro ⟨pre, b, post, e, k1, k2, k3, k4⟩
          cases pre with
          | nil =>
            cases e
            exact absurd (Option.some.inj (h1.symm.trans k1)) h2
          | cons c pre =>
            cases e
            exact ⟨pre, b, post, rfl, k1, k2, fun x hx => k3 x (List.mem_cons_of_mem _ hx), k4⟩
      · have hn := verifyAny_stop (as := as) hv he
        unfold WebPki.verifyAny at hn
        rw [hv] at hn
        rw [hn]
        constructor
        · intro h; cases h
        · rintro ⟨pre, b, post, e', k1, k2, k3, k4⟩
          exfalso
          cases pre with
          | nil =>
            cases e'
            rw [verifySignature_ok.2 ⟨k1, k2⟩] at hv
            cases hv
          | cons c pre =>
            cases e'
            have : P.verifySignature cert a message sig = .error .unsupportedForKey :=
              verifySignature_skip.2 ⟨_, k1, fun h => k3 a (by simp) h.symm⟩
            rw [this] at hv
            exact he (Except.error.inj hv).symm

theorem convertScheme_ok {algs : List RingAlg} (h : convertScheme scheme = .ok algs) : ∃ kind, SchemeIs scheme kind ∧
    (∀ a ∈ algs, KeyMakes a.key a.sig ∧ a.sig = kind) ∧ (∀ k, KeyMakes k kind → ⟨k, kind⟩ ∈ algs) ∧ (algs.map (·.key)).Nodup := by
  have fin : ∀ (kind : SigId) (l : List RingAlg), SchemeIs scheme kind → l = algs →
      (∀ a ∈ l, KeyMakes a.key a.sig ∧ a.sig = kind) → (∀ k, KeyMakes k kind → ⟨k, kind⟩ ∈ l) → (l.map (·.key)).Nodup →
      ∃ kind, SchemeIs scheme kind ∧ (∀ a ∈ algs, KeyMakes a.key a.sig ∧ a.sig = kind) ∧
        (∀ k, KeyMakes k kind → ⟨k, kind⟩ ∈ algs) ∧ (algs.map (·.key)).Nodup := by
    intro kind l h1 h2 h3 h4 h5
    subst h2
    exact ⟨kind, h1, h3, h4, h5⟩
  unfold convertScheme at h
  split at h
  · rename_i he; subst he
    exact fin _ _ .ecdsa256 (Except.ok.inj h) (by simp; exact ⟨.p256_256, .p384_256⟩) (by intro k hk; cases hk <;> simp) (by simp)
  split at h
  · rename_i he; subst he
    exact fin _ _ .ecdsa384 (Except.ok.inj h) (by simp; exact ⟨.p256_384, .p384_384⟩) (by intro k hk; cases hk <;> simp) (by simp)
  split at h
  · rename_i he; subst he
    exact fin _ _ .ed25519 (Except.ok.inj h) (by simp; exact .ed25519) (by intro k hk; cases hk; simp) (by simp)
  split at h
  · rename_i he; subst he
    exact fin _ _ .pkcs256 (Except.ok.inj h) (by simp; exact .pkcs256) (by intro k hk; cases hk; simp) (by simp)
  split at h
  · rename_i he; subst he
    exact fin _ _ .pkcs384 (Except.ok.inj h) (by simp; exact .pkcs384) (by intro k hk; cases hk; simp) (by simp)
  split at h
  · rename_i he; subst he
    exact fin _ _ .pkcs512 (Except.ok.inj h) (by simp; exact .pkcs512) (by intro k hk; cases hk; simp) (by simp)
  split at h
  · rename_i he; subst he
    exact fin _ _ .pss256 (Except.ok.inj h) (by simp; exact .pss256) (by intro k hk; cases hk; simp) (by simp)
  split at h
  · rename_i he; subst he
    exact fin _ _ .pss384 (Except.ok.inj h) (by simp; exact .pss384) (by intro k hk; cases hk; simp) (by simp)
  split at h
  · rename_i he; subst he
    exact fin _ _ .pss512 (Except.ok.inj h) (by simp; exact .pss512) (by intro k hk; cases hk; simp) (by simp)
  · cases h

theorem convertScheme_of {kind : SigId} (h : SchemeIs scheme kind) : ∃ algs, convertScheme scheme = .ok algs := by
  cases h <;> exact ⟨_, rfl⟩

/-- What the algorithm that is determined is, exactly. -/
theorem determine_ok {alg : SignatureAlgorithm} : P.determineAlg cert message scheme sig = .ok alg ↔
    P.parses cert = true ∧ ∃ key kind, P.keyAlg cert = some key ∧ SchemeIs scheme kind ∧ KeyMakes key kind ∧
      P.raw cert kind message sig = true ∧ alg = nameOf kind := by
  unfold WebPki.determineAlg
  by_cases hp : P.parses cert = true
  · simp only [hp, Bool.not_true, Bool.false_eq_true, if_false, true_and]
    cases hc : convertScheme scheme with
    | error e =>
      simp only [reduceCtorEq, false_iff]
      rintro ⟨key, kind, -, hs, -⟩
      obtain ⟨algs, ha⟩ := convertScheme_of hs
      rw [ha] at hc
      cases hc
    | ok algs =>
      obtain ⟨kind, hs, ha, hm, hn⟩ := convertScheme_ok hc
      simp only [verifyAny_ok]
      constructor
      · rintro ⟨pre, a, post, rfl, k1, k2, -, k4⟩
        obtain ⟨m1, m2⟩ := ha a (by simp)
        subst m2
        exact ⟨_, _, k1, hs, m1, k2, k4⟩
      · rintro ⟨key, kind', k1, k2, k3, k4, k5⟩
        cases scheme_unique hs k2
        obtain ⟨pre, post, rfl⟩ := List.append_of_mem (hm key k3)
        refine ⟨pre, _, post, rfl, k1, k4, fun x hx he => ?_, k5⟩
        rw [List.map_append, List.nodup_append] at hn
        exact hn.2.2 _ (List.mem_map_of_mem hx) _ (by simp) he
  · simp [hp]

theorem signed_struct_ok : P.verifySignedStruct message cert scheme sig = .ok () ↔ ∃ alg, P.determineAlg cert message scheme sig = .ok alg := by
  unfold WebPki.verifySignedStruct WebPki.determineAlg
  cases hc : convertScheme scheme with
  | error e => by_cases hp : P.parses cert = true <;> simp [hp]
  | ok algs =>
    by_cases hp : P.parses cert = true
    · simp only [hp, Bool.not_true, Bool.false_eq_true, if_false]
      cases P.verifyAny cert message sig algs with
      | ok a => exact ⟨fun _ => ⟨a, rfl⟩, fun _ => rfl⟩
      | err e => exact ⟨fun h => (by cases h), fun ⟨_, h⟩ => (by cases h)⟩
      | panic => exact ⟨fun h => (by cases h), fun ⟨_, h⟩ => (by cases h)⟩
    · simp [hp]

theorem verifyAny_no_panic (algs : List RingAlg) : P.verifyAny cert message sig algs ≠ .panic := by
  induction algs with
  | nil => simp [WebPki.verifyAny]
  | cons a as ih =>
    unfold WebPki.verifyAny
    split
    · rw [fromAlg_eq]; simp
    · exact ih
    · simp

/-! ## C106 -/

/-- C106: the client accepts a signature of the server if and only if the key of the certificate made it over the message by the
scheme; the algorithm of the signature is then determined, and never otherwise, and there is no panic. -/
theorem C106_accepted (P : WebPki) (cert message : Bytes) (scheme : UInt16) (sig : Bytes) :
    (P.verifySignedStruct message cert scheme sig = .ok () ↔ Signed P cert message scheme sig) ∧
    ((∃ alg, P.determineAlg cert message scheme sig = .ok alg) ↔ Signed P cert message scheme sig) ∧
    P.verifySignedStruct message cert scheme sig ≠ .panic ∧ P.determineAlg cert message scheme sig ≠ .panic := by
  have hd : (∃ alg, P.determineAlg cert message scheme sig = .ok alg) ↔ Signed P cert message scheme sig := by
    constructor
    · rintro ⟨alg, h⟩
      obtain ⟨h0, key, kind, h1, h2, h3, h4, -⟩ := determine_ok.1 h
      exact ⟨h0, key, kind, h1, h2, h3, h4⟩
    · rintro ⟨h0, key, kind, h1, h2, h3, h4⟩
      exact ⟨_, determine_ok.2 ⟨h0, key, kind, h1, h2, h3, h4, rfl⟩⟩
  refine ⟨signed_struct_ok.trans hd, hd, ?_, ?_⟩
  · unfold WebPki.verifySignedStruct
    cases convertScheme scheme with
    | error e => simp
    | ok algs =>
      simp only
      by_cases hp : P.parses cert = true
      · simp only [hp, Bool.not_true, Bool.false_eq_true, if_false]
        cases hv : P.verifyAny cert message sig algs with
        | ok a => exact fun h => (by cases h)
        | err e => exact fun h => (by cases h)
        | panic => exact absurd hv (verifyAny_no_panic _)
      · simp [hp]
  · unfold WebPki.determineAlg
    by_cases hp : P.parses cert = true
    · simp only [hp, Bool.not_true, Bool.false_eq_true, if_false]
      cases convertScheme scheme with
      | error e => simp
      | ok algs => exact verifyAny_no_panic _
    · simp [hp]

/-- C106: the schemes that the client offers are those of which it accepts signatures. -/
theorem C106_offered (scheme : UInt16) : scheme ∈ verificationSchemes ↔ ∃ kind, SchemeIs scheme kind := by
  constructor
  · intro h
    simp only [verificationSchemes, List.mem_cons, List.not_mem_nil, or_false] at h
    rcases h with rfl | rfl | rfl | rfl | rfl | rfl | rfl | rfl | rfl
    · exact ⟨_, .ecdsa384⟩
    · exact ⟨_, .ecdsa256⟩
    · exact ⟨_, .ed25519⟩
    · exact ⟨_, .pss512⟩
    · exact ⟨_, .pss384⟩
    · exact ⟨_, .pss256⟩
    · exact ⟨_, .pkcs512⟩
    · exact ⟨_, .pkcs384⟩
    · exact ⟨_, .pkcs256⟩
  · rintro ⟨kind, h⟩
    cases h <;> simp [verificationSchemes]

/-- C106, in part: the algorithm that is determined for an accepted signature is one with which a verifier accepts it, if the key is
not one on the curve P-384.  Missing: keys on P-384, for which it is false (`C106_p384_rejected`). -/
theorem C106_recorded_partial (P : WebPki) (anchors : List Bytes) (cert message : Bytes) (scheme : UInt16) (sig : Bytes)
    (alg : SignatureAlgorithm) (h : P.determineAlg cert message scheme sig = .ok alg) (hk : P.keyAlg cert ≠ some .p384) :
    (P.certVerifier anchors).sigOk cert alg message sig = true := by
  obtain ⟨-, key, kind, h1, -, h3, h4, rfl⟩ := determine_ok.1 h
  have : P.verifySignature cert (ringAlg (nameOf kind)) message sig = .ok () := by
    rw [verifySignature_ok]
    cases h3 <;> first | exact ⟨h1, h4⟩ | exact absurd h1 hk
  simp [WebPki.certVerifier, this]

/-- C106 is false of the code for keys on P-384: every signature that is accepted is recorded with an algorithm with which every
verifier rejects it. -/
theorem C106_p384_rejected (P : WebPki) (anchors : List Bytes) (cert message : Bytes) (scheme : UInt16) (sig : Bytes)
    (alg : SignatureAlgorithm) (h : P.determineAlg cert message scheme sig = .ok alg) (hk : P.keyAlg cert = some .p384) :
    (P.certVerifier anchors).sigOk cert alg message sig = false ∧
    ∃ other, (P.certVerifier anchors).sigOk cert other message sig = true := by
  obtain ⟨-, key, kind, h1, -, h3, h4, rfl⟩ := determine_ok.1 h
  cases Option.some.inj (hk.symm.trans h1)
  cases h3 with
  | p384_256 =>
    refine ⟨?_, .ecdsaP384Sha256, ?_⟩
    · simp [WebPki.certVerifier, WebPki.verifySignature, hk, nameOf, ringAlg]
    · simp [WebPki.certVerifier, WebPki.verifySignature, hk, ringAlg, h4]
  | p384_384 =>
    refine ⟨?_, .ecdsaP384Sha384, ?_⟩
    · simp [WebPki.certVerifier, WebPki.verifySignature, hk, nameOf, ringAlg]
    · simp [WebPki.certVerifier, WebPki.verifySignature, hk, ringAlg, h4]

/-- The curve of a certificate, as the proxy mode reads it, is that of its key. -/
def CurveOf (P : WebPki) (env : TtEnv) : Prop := ∀ cert,
  (P.keyAlg cert = some .p256 → env.curve cert = some .p256) ∧ (P.keyAlg cert = some .p384 → env.curve cert = some .p384)

/-- C106: in the proxy mode, the algorithm that is recorded is one with which a verifier accepts the signature, for all keys. -/
theorem C106_proxy_recorded (P : WebPki) (env : TtEnv) (hc : CurveOf P env) (anchors : List Bytes) (cert : Bytes) (rest : List Bytes)
    (message : Bytes) (scheme : UInt16) (sig : Bytes) (h : Signed P cert message scheme sig) :
    ∃ alg, mapSignatureScheme env scheme (cert :: rest) = .ok alg ∧ (P.certVerifier anchors).sigOk cert alg message sig = true := by
  obtain ⟨-, key, kind, h1, h2, h3, h4⟩ := h
  have fin : ∀ alg, ringAlg alg = ⟨key, kind⟩ → (P.certVerifier anchors).sigOk cert alg message sig = true := by
    intro alg ha
    have : P.verifySignature cert (ringAlg alg) message sig = .ok () := by
      rw [verifySignature_ok, ha]
      exact ⟨h1, h4⟩
    simp [WebPki.certVerifier, this]
  cases h2 <;> cases h3
  · exact ⟨.ecdsaP256Sha256, by simp [mapSignatureScheme, extractCurve, orParse, (hc cert).1 h1]; rfl, fin _ rfl⟩
  · exact ⟨.ecdsaP384Sha256, by simp [mapSignatureScheme, extractCurve, orParse, (hc cert).2 h1]; rfl, fin _ rfl⟩
  · exact ⟨.ecdsaP256Sha384, by simp [mapSignatureScheme, extractCurve, orParse, (hc cert).1 h1]; rfl, fin _ rfl⟩
  · exact ⟨.ecdsaP384Sha384, by simp [mapSignatureScheme, extractCurve, orParse, (hc cert).2 h1]; rfl, fin _ rfl⟩
  · exact ⟨.ed25519, rfl, fin _ rfl⟩
  · exact ⟨.rsaPkcs1Sha256, rfl, fin _ rfl⟩
  · exact ⟨.rsaPkcs1Sha384, rfl, fin _ rfl⟩
  · exact ⟨.rsaPkcs1Sha512, rfl, fin _ rfl⟩
  · exact ⟨.rsaPssSha256, rfl, fin _ rfl⟩
  · exact ⟨.rsaPssSha384, rfl, fin _ rfl⟩
  · exact ⟨.rsaPssSha512, rfl, fin _ rfl⟩

/-- C106: what is accepted by the rules of TLS 1.3 is accepted by those of TLS 1.2, and the curve is then the one that the scheme
names. -/
theorem C106_tls13 (P : WebPki) (cert message : Bytes) (scheme : UInt16) (sig : Bytes)
    (h : P.verifyTls13 message cert scheme sig = .ok ()) :
    Signed P cert message scheme sig ∧ (scheme = 0x0403 → P.keyAlg cert = some .p256) ∧ (scheme = 0x0503 → P.keyAlg cert = some .p384) := by
  unfold WebPki.verifyTls13 at h
  cases hc : convertAlgTls13 scheme with
  | error e => rw [hc] at h; cases h
  | ok alg =>
    rw [hc] at h
    simp only at h
    by_cases hp : P.parses cert = true
    · simp only [hp, Bool.not_true, Bool.false_eq_true, if_false] at h
      obtain ⟨h1, h2⟩ := verifySignature_ok.1 h
      unfold convertAlgTls13 at hc
      split at hc
      · rename_i he; subst he; cases hc
        exact ⟨⟨hp, _, _, h1, .ecdsa256, .p256_256, h2⟩, fun _ => h1, fun he => absurd he (by decide)⟩
      split at hc
      · rename_i he; subst he; cases hc
        exact ⟨⟨hp, _, _, h1, .ecdsa384, .p384_384, h2⟩, fun he => absurd he (by decide), fun _ => h1⟩
      split at hc
      · rename_i he; subst he; cases hc
        exact ⟨⟨hp, _, _, h1, .ed25519, .ed25519, h2⟩, fun he => absurd he (by decide), fun he => absurd he (by decide)⟩
      split at hc
      · rename_i he; subst he; cases hc
        exact ⟨⟨hp, _, _, h1, .pss256, .pss256, h2⟩, fun he => absurd he (by decide), fun he => absurd he (by decide)⟩
      split at hc
      · rename_i he; subst he; cases hc
        exact ⟨⟨hp, _, _, h1, .pss384, .pss384, h2⟩, fun he => absurd he (by decide), fun he => absurd he (by decide)⟩
      split at hc
      · rename_i he; subst he; cases hc
        exact ⟨⟨hp, _, _, h1, .pss512, .pss512, h2⟩, fun he => absurd he (by decide), fun he => absurd he (by decide)⟩
      · cases hc
    · simp [hp] at h

/-! ## C107 -/

theorem sctLoop_cons {logs : List Bytes} {millis : Nat} (s : Bytes) (ss : List Bytes) (last : Option SctError) :
    P.sctLoop logs cert millis last (s :: ss) = match P.sct logs cert s millis with
      | .ok () => .ok ()
      | .error e => if e.fatal then .error (.sct e) else P.sctLoop logs cert millis (some e) ss := by
  cases last <;> rfl

theorem sctLoop_ok {logs : List Bytes} {millis : Nat} : ∀ (scts : List Bytes) (last : Option SctError),
    P.sctLoop logs cert millis last scts = .ok () ↔ (last = none ∧ scts = []) ∨
      ∃ pre s post, scts = pre ++ s :: post ∧ P.sct logs cert s millis = .ok () ∧
        ∀ x ∈ pre, ∃ e, P.sct logs cert x millis = .error e ∧ e.fatal = false
  | [], none => by simp [WebPki.sctLoop]
  | [], some e => by simp [WebPki.sctLoop]
  | s :: ss, last => by
    rw [sctLoop_cons]
    cases hs : P.sct logs cert s millis with
    | ok u =>
      simp only [true_iff]
      exact Or.inr ⟨[], s, ss, rfl, hs, by simp⟩
    | error e =>
      simp only
      by_cases hf : e.fatal = true
      · rw [if_pos hf]
        simp only [reduceCtorEq, and_false, false_or, false_iff]
        rintro ⟨pre, t, post, he, h1, h2⟩
        cases pre with
        | nil => cases he; rw [hs] at h1; cases h1
        | cons x pre =>
          cases he
          obtain ⟨e', h3, h4⟩ := h2 s (by simp)
          rw [hs] at h3
          cases h3
          rw [hf] at h4
          cases h4
      · rw [if_neg hf, sctLoop_ok ss (some e)]
        simp only [reduceCtorEq, false_and, and_false, false_or]
        constructor
        · rintro ⟨pre, t, post, rfl, h1, h2⟩
          refine ⟨s :: pre, t, post, rfl, h1, fun x hx => ?_⟩
          rcases List.mem_cons.1 hx with rfl | hx
          · exact ⟨e, hs, by simpa using hf⟩
          · exact h2 x hx
        · rintro ⟨pre, t, post, he, h1, h2⟩
          cases pre with
          | nil => cases he; rw [hs] at h1; cases h1
          | cons x pre =>
            cases he
            exact ⟨pre, t, post, rfl, h1, fun x hx => h2 x (List.mem_cons_of_mem _ hx)⟩

theorem unixSecs_some {now : Int} {n : Nat} : unixSecs now = some n ↔ 0 ≤ now ∧ (n : Int) = now / 1000000000 := by
  unfold unixSecs
  by_cases h : now < 0
  · rw [if_pos h]
    simp only [reduceCtorEq, false_iff]
    omega
  · rw [if_neg h]
    simp only [Option.some.injEq]
    omega

theorem millis_ok {now : Int} (h0 : 0 ≤ now) {m : Nat} : unixTimeMillis now = .ok m ↔
    (m : Int) = now / 1000000000 * 1000 ∧ m < 2 ^ 64 := by
  unfold unixTimeMillis
  cases hs : unixSecs now with
  | none =>
    unfold unixSecs at hs
    rw [if_neg (by omega)] at hs
    cases hs
  | some s =>
    obtain ⟨-, h⟩ := unixSecs_some.1 hs
    simp only
    by_cases hl : s * 1000 < 2 ^ 64
    · rw [if_pos hl, Except.ok.injEq]
      constructor
      · rintro rfl
        exact ⟨by rw [← h]; omega, hl⟩
      · rintro ⟨k1, -⟩
        rw [← h] at k1
        omega
    · rw [if_neg hl]
      simp only [reduceCtorEq, false_iff]
      rintro ⟨k1, k2⟩
      rw [← h] at k1
      omega

theorem ctVerify_ok {policy : CtPolicy} {now : Int} (h0 : 0 ≤ now) {scts : List Bytes} :
    P.ctVerify policy cert now scts = .ok () ↔ SctsOk P policy cert now scts := by
  unfold WebPki.ctVerify SctsOk
  by_cases hl : policy.logs = [] ∨ policy.deadline < now
  · rw [if_pos hl]
    simp only [true_iff]
    rcases hl with h | h
    · exact Or.inl h
    · exact Or.inr (Or.inl h)
  · rw [if_neg hl]
    have h1 : ¬ policy.logs = [] := fun h => hl (Or.inl h)
    have h2 : ¬ policy.deadline < now := fun h => hl (Or.inr h)
    simp only [h1, h2, false_or]
    cases hm : unixTimeMillis now with
    | error e =>
      simp only [reduceCtorEq, false_iff]
      rintro ⟨m, k1, k2, -⟩
      rw [(millis_ok h0).2 ⟨k1, k2⟩] at hm
      cases hm
    | ok m =>
      simp only [sctLoop_ok, true_and]
      constructor
      · intro h
        exact ⟨m, ((millis_ok h0).1 hm).1, ((millis_ok h0).1 hm).2, h⟩
      · rintro ⟨m', k1, k2, k3⟩
        rw [(millis_ok h0).2 ⟨k1, k2⟩] at hm
        cases hm
        exact k3

/-- C107: the client accepts the server's certificates if and only if the clock is not before 1970, the certificate is one for the
name with a path to one of the roots at the time of the clock, and the timestamps satisfy the policy, if there is one. -/
theorem C107_client (P : WebPki) (anchors : List Bytes) (ct : Option CtPolicy) (endEntity : Bytes) (intermediates : List Bytes)
    (name : ServerName) (scts : List Bytes) (now : Int) :
    P.clientVerifyCert anchors ct endEntity intermediates name scts now = .ok () ↔
      ∃ secs : Nat, (secs : Int) = now / 1000000000 ∧ 0 ≤ now ∧ CertOk P anchors endEntity intermediates name secs ∧
        ∀ policy, ct = some policy → SctsOk P policy endEntity now scts := by
  unfold WebPki.clientVerifyCert CertOk
  by_cases hp : P.parses endEntity = true
  · simp only [hp, Bool.not_true, Bool.false_eq_true, if_false, true_and]
    cases hs : unixSecs now with
    | none =>
      simp only [reduceCtorEq, false_iff]
      rintro ⟨n, h1, h2, -⟩
      rw [unixSecs_some.2 ⟨h2, h1⟩] at hs
      cases hs
    | some secs =>
      obtain ⟨h1, h2⟩ := unixSecs_some.1 hs
      have huniq : ∀ n : Nat, (n : Int) = now / 1000000000 → n = secs := by omega
      simp only
      by_cases hpath : P.path anchors endEntity intermediates secs = true
      · simp only [hpath, Bool.not_true, Bool.false_eq_true, if_false]
        have hct : (ct.elim (.ok ()) fun policy => P.ctVerify policy endEntity now scts) = .ok () ↔
            ∀ policy, ct = some policy → SctsOk P policy endEntity now scts := by
          cases ct with
          | none => simp
          | some policy => simp [ctVerify_ok h1]
        cases he : (ct.elim (.ok ()) fun policy => P.ctVerify policy endEntity now scts) with
        | error e =>
          simp only [reduceCtorEq, false_iff]
          rintro ⟨n, -, -, -, h⟩
          rw [hct.2 h] at he
          cases he
        | ok u =>
          simp only
          by_cases hn : P.nameOk endEntity name = true
          · simp only [hn, if_true, true_iff]
            exact ⟨secs, h2, h1, ⟨hpath, trivial⟩, hct.1 he⟩
          · simp [hn]
      · simp only [hpath, Bool.not_false, if_true, reduceCtorEq, false_iff]
        rintro ⟨n, k1, -, ⟨k2, -⟩, -⟩
        rw [huniq n k1] at k2
        exact hpath k2
  · simp [hp]

theorem anchors_ok {roots as : List Bytes} : P.anchors roots = .ok as ↔ roots.map P.anchor = as.map some := by
  induction roots generalizing as with
  | nil => cases as <;> simp [WebPki.anchors]
  | cons c cs ih =>
    unfold WebPki.anchors
    cases ha : P.anchor c with
    | none =>
      simp only [reduceCtorEq, false_iff, List.map_cons, ha]
      cases as <;> simp
    | some a =>
      simp only [List.map_cons, ha]
      cases hr : P.anchors cs with
      | error e =>
        simp only [reduceCtorEq, false_iff]
        cases as with
        | nil => simp
        | cons b bs =>
          intro h
          rw [List.map_cons, List.cons.injEq] at h
          rw [ih.2 h.2] at hr
          cases hr
      | ok bs =>
        have hb := ih.1 hr
        simp only [Except.ok.injEq, hb]
        constructor
        · rintro rfl; rfl
        · intro h
          cases as with
          | nil => cases h
          | cons b bs' =>
            rw [List.map_cons, List.cons.injEq] at h
            rw [Option.some.inj h.1, List.map_inj_right (fun _ _ => Option.some.inj) |>.1 h.2]

/-- C107: a verifier is made of a root store if and only if all its certificates can be trust anchors, and it then has their anchors
and no others; otherwise the certificate that is named is one of the store that cannot. -/
theorem C107_roots (P : WebPki) (roots : List Bytes) :
    (∀ as, P.anchors roots = .ok as ↔ roots.map P.anchor = as.map some) ∧
    (∀ c, P.anchors roots = .error c → c ∈ roots ∧ P.anchor c = none) := by
  refine ⟨fun as => anchors_ok, ?_⟩
  induction roots with
  | nil => intro c h; cases h
  | cons x xs ih =>
    intro c h
    unfold WebPki.anchors at h
    cases ha : P.anchor x with
    | none =>
      rw [ha] at h
      cases h
      exact ⟨by simp, ha⟩
    | some a =>
      rw [ha] at h
      simp only at h
      cases hr : P.anchors xs with
      | error e =>
        rw [hr] at h
        cases h
        exact ⟨List.mem_cons_of_mem _ (ih _ hr).1, (ih _ hr).2⟩
      | ok bs => rw [hr] at h; cases h

/-- C107: a verifier accepts the handshake data if and only if the key is the one of the session, the certificates are for the name
with a path to one of its roots at the time of the session, and the key of the first of them made the signature over the randoms
and the server's key with the algorithm that is named. -/
theorem C107_verifier (P : WebPki) (anchors : List Bytes) (d : HandshakeData) (time : Nat) (key : ServerEphemKey) (name : ServerName) :
    d.verify (P.certVerifier anchors) time key name = .ok () ↔
      key = d.serverEphemeralKey ∧ ∃ endEntity intermediates, d.certs = endEntity :: intermediates ∧
        CertOk P anchors endEntity intermediates name time ∧
        P.keyAlg endEntity = some (ringAlg d.sigAlg).key ∧
        P.raw endEntity (ringAlg d.sigAlg).sig (d.clientRandom.toList ++ (d.serverRandom.toList ++ key.kxParams)) d.sig = true := by
  unfold HandshakeData.verify
  by_cases hk : key = d.serverEphemeralKey
  · simp only [hk, ne_eq, not_true, if_false, true_and]
    cases hc : d.certs with
    | nil => simp
    | cons e is =>
      simp only [List.cons.injEq]
      have hsig : ∀ m, (P.certVerifier anchors).sigOk e d.sigAlg m d.sig = true ↔
          P.keyAlg e = some (ringAlg d.sigAlg).key ∧ P.raw e (ringAlg d.sigAlg).sig m d.sig = true := by
        intro m
        rw [← verifySignature_ok]
        show (match P.verifySignature e (ringAlg d.sigAlg) m d.sig with | .ok () => true | .error _ => false) = true ↔ _
        cases P.verifySignature e (ringAlg d.sigAlg) m d.sig <;> simp
      have hcert : (P.certVerifier anchors).verifyServerCert e is name time = true ↔ CertOk P anchors e is name time := by
        unfold CertVerifier.verifyServerCert CertOk
        simp only [WebPki.certVerifier]
        by_cases h1 : P.parses e = true <;> by_cases h2 : P.path anchors e is time = true <;> simp [h1, h2]
      by_cases h1 : (P.certVerifier anchors).verifyServerCert e is name time = true
      · have hp : (P.certVerifier anchors).parses e = true := (hcert.1 h1).1
        simp only [h1, hp, Bool.not_true, Bool.false_eq_true, if_false]
        by_cases h2 : (P.certVerifier anchors).sigOk e d.sigAlg
            (d.clientRandom.toList ++ (d.serverRandom.toList ++ d.serverEphemeralKey.kxParams)) d.sig = true
        · simp only [h2, Bool.not_true, Bool.false_eq_true, if_false, true_iff]
          exact ⟨e, is, ⟨rfl, rfl⟩, hcert.1 h1, (hsig _).1 h2⟩
        · simp only [h2, Bool.not_false, if_true, reduceCtorEq, false_iff]
          rintro ⟨e', is', ⟨rfl, rfl⟩, -, k⟩
          exact h2 ((hsig _).2 k)
      · simp only [h1, Bool.not_false, if_true, reduceCtorEq, false_iff]
        rintro ⟨e', is', ⟨rfl, rfl⟩, k, -⟩
        exact h1 (hcert.2 k)
  · simp [hk]

end Tlsn.Pki
