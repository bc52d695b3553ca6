import Verif.ClientAuth.Props
import Verif.Client.Faithful

/-! # The client's identity (C110) and its configuration (C111) -/

namespace Tlsn.ClientAuth

open Pki (KeyAlg SigId KeyMakes)
open Client (Ev ClientCfg Conn World Call Session transcriptOf significant eventsOf)

/-! ## Schemes -/

theorem scheme_unique {s : UInt16} {a b : SigId} (h1 : Pki.SchemeIs s a) (h2 : Pki.SchemeIs s b) : b = a := by
  cases h1 <;> cases h2 <;> rfl

theorem fits_rsa {p : Bytes} {s : UInt16} : Fits (.rsa p) s ↔ s ∈ allRsaSchemes := by
  simp only [allRsaSchemes, List.mem_cons, List.not_mem_nil, or_false]
  constructor
  · rintro ⟨kind, h1, h2⟩
    cases h1 <;> first | (cases h2; done) | decide
  · rintro (rfl | rfl | rfl | rfl | rfl | rfl)
    · exact ⟨_, .pss512, .pss512⟩
    · exact ⟨_, .pss384, .pss384⟩
    · exact ⟨_, .pss256, .pss256⟩
    · exact ⟨_, .pkcs512, .pkcs512⟩
    · exact ⟨_, .pkcs384, .pkcs384⟩
    · exact ⟨_, .pkcs256, .pkcs256⟩

theorem fits_p256 {p : Bytes} {s : UInt16} : Fits (.p256 p) s ∧ OwnHash (.p256 p) s ↔ s = 0x0403 := by
  constructor
  · exact fun h => h.2.1 rfl
  · rintro rfl
    exact ⟨⟨_, .ecdsa256, .p256_256⟩, fun _ => rfl, (fun h => by cases h)⟩

theorem fits_p384 {p : Bytes} {s : UInt16} : Fits (.p384 p) s ∧ OwnHash (.p384 p) s ↔ s = 0x0503 := by
  constructor
  · exact fun h => h.2.2 rfl
  · rintro rfl
    exact ⟨⟨_, .ecdsa384, .p384_384⟩, (fun h => by cases h), fun _ => rfl⟩

theorem fits_ed {p : Bytes} {s : UInt16} : Fits (.ed25519 p) s ↔ s = 0x0807 := by
  constructor
  · rintro ⟨kind, h1, h2⟩
    cases h1 <;> first | (cases h2; done) | rfl
  · rintro rfl
    exact ⟨_, .ed25519, .ed25519⟩

/-- C110: the scheme that is chosen is one that the server has offered and that the key can make, of ECDSA with the hash of the curve's length, and the
last in the order of the numbers, which is RSA-PSS before PKCS#1 and longer hashes before shorter ones; none is chosen only if there is no
such scheme.  Then the signature can be made without a panic, and is of the kind of the scheme. -/
theorem C110_scheme (k : SigningKey) (offered : List UInt16) :
    (∀ s, k.chooseScheme offered = some s ↔ s ∈ offered ∧ Fits k s ∧ OwnHash k s ∧
      ∀ s' ∈ offered, Fits k s' → OwnHash k s' → s' ≤ s) ∧
    (k.chooseScheme offered = none ↔ ∀ s ∈ offered, Fits k s → ¬ OwnHash k s) ∧
    (∀ s, k.chooseScheme offered = some s → ∀ R message rnd, k.sign R s message rnd ≠ .panic ∧
      ∀ sig, k.sign R s message rnd = .ok sig ↔ ∃ kind, Pki.SchemeIs s kind ∧ R.sign k.pair kind message rnd = some sig) := by
  have one : ∀ (k : SigningKey) (v : UInt16), (∀ s, Fits k s ∧ OwnHash k s ↔ s = v) →
      (∀ s, (if offered.contains v then some v else none) = some s ↔ s ∈ offered ∧ Fits k s ∧ OwnHash k s ∧
        ∀ s' ∈ offered, Fits k s' → OwnHash k s' → s' ≤ s) ∧
      ((if offered.contains v then some v else none) = none ↔ ∀ s ∈ offered, Fits k s → ¬ OwnHash k s) := by
    intro k v hv
    constructor
    · intro s
      constructor
      · intro h
        split at h
        · rename_i hc
          cases h
          have := (hv v).2 rfl
          refine ⟨by simpa using hc, this.1, this.2, fun s' _ h1 h2 => ?_⟩
          rw [(hv s').1 ⟨h1, h2⟩]
          exact UInt16.le_refl _
        · cases h
      · rintro ⟨h1, h2, h3, -⟩
        obtain rfl := (hv s).1 ⟨h2, h3⟩
        rw [if_pos (by simpa using h1)]
    · constructor
      · intro h s hs h1 h2
        obtain rfl := (hv s).1 ⟨h1, h2⟩
        rw [if_pos (by simpa using hs)] at h
        cases h
      · intro h
        rw [if_neg]
        intro hc
        have := (hv v).2 rfl
        exact h v (by simpa using hc) this.1 this.2
  have made : ∀ (R : Ring) (pair message rnd sig : Bytes) (kind : SigId),
      (match R.sign pair kind message rnd with | some sig => Outcome.ok sig | none => .err () : Outcome Unit Bytes) ≠ .panic ∧
      ((match R.sign pair kind message rnd with | some sig => Outcome.ok sig | none => .err () : Outcome Unit Bytes) = .ok sig ↔
        R.sign pair kind message rnd = some sig) := by
    intro R pair message rnd sig kind
    cases R.sign pair kind message rnd <;> simp
  have uniq : ∀ (s : UInt16) (kind : SigId) (X : SigId → Prop), Pki.SchemeIs s kind → ((∃ kind, Pki.SchemeIs s kind ∧ X kind) ↔ X kind) := by
    intro s kind X hk
    constructor
    · rintro ⟨kind', h1, h2⟩
      exact scheme_unique hk h1 ▸ h2
    · exact fun h => ⟨kind, hk, h⟩
  cases k with
  | p256 p =>
    refine ⟨(one _ 0x0403 fun s => fits_p256).1, (one _ 0x0403 fun s => fits_p256).2, fun s hs R message rnd => ?_⟩
    obtain rfl : s = 0x0403 := fits_p256.1 ⟨(((one (.p256 p) 0x0403 fun s => fits_p256).1 s).1 hs).2.1, (((one (.p256 p) 0x0403 fun s => fits_p256).1 s).1 hs).2.2.1⟩
    refine ⟨(made R p message rnd [] .ecdsaSha256).1, fun sig => ?_⟩
    rw [uniq 0x0403 .ecdsaSha256 _ .ecdsa256]
    exact (made R p message rnd sig .ecdsaSha256).2
  | p384 p =>
    refine ⟨(one _ 0x0503 fun s => fits_p384).1, (one _ 0x0503 fun s => fits_p384).2, fun s hs R message rnd => ?_⟩
    obtain rfl : s = 0x0503 := fits_p384.1 ⟨(((one (.p384 p) 0x0503 fun s => fits_p384).1 s).1 hs).2.1, (((one (.p384 p) 0x0503 fun s => fits_p384).1 s).1 hs).2.2.1⟩
    refine ⟨(made R p message rnd [] .ecdsaSha384).1, fun sig => ?_⟩
    rw [uniq 0x0503 .ecdsaSha384 _ .ecdsa384]
    exact (made R p message rnd sig .ecdsaSha384).2
  | ed25519 p =>
    have hv : ∀ s, Fits (.ed25519 p) s ∧ OwnHash (.ed25519 p) s ↔ s = 0x0807 := fun s =>
      ⟨fun h => fits_ed.1 h.1, fun h => ⟨fits_ed.2 h, (fun h => by cases h), (fun h => by cases h)⟩⟩
    refine ⟨(one _ 0x0807 hv).1, (one _ 0x0807 hv).2, fun s hs R message rnd => ?_⟩
    obtain rfl : s = 0x0807 := (hv s).1 ⟨(((one _ 0x0807 hv).1 s).1 hs).2.1, (((one _ 0x0807 hv).1 s).1 hs).2.2.1⟩
    refine ⟨(made R p message rnd [] .ed25519).1, fun sig => ?_⟩
    rw [uniq 0x0807 .ed25519 _ .ed25519]
    exact (made R p message rnd sig .ed25519).2
  | rsa p =>
    have own : ∀ s, OwnHash (.rsa p) s := fun s => ⟨(fun h => by cases h), (fun h => by cases h)⟩
    have fwd : ∀ s, (SigningKey.rsa p).chooseScheme offered = some s → s ∈ offered ∧ s ∈ allRsaSchemes ∧ ∀ s' ∈ offered, s' ∈ allRsaSchemes → s' ≤ s := by
      intro s h
      have h1 := List.find?_some h
      have h2 := List.mem_of_find?_eq_some h
      refine ⟨by simpa using h1, h2, fun s' hs' ha => ?_⟩
      have hc : offered.contains s' = true := by simpa using hs'
      revert h
      simp only [SigningKey.chooseScheme, allRsaSchemes, List.mem_cons, List.not_mem_nil, or_false] at ha ⊢
      rcases ha with rfl | rfl | rfl | rfl | rfl | rfl
      all_goals
        simp only [List.find?_cons, hc]
        repeat' split
        all_goals first
          | (intro h; cases h; decide)
    have non : (SigningKey.rsa p).chooseScheme offered = none ↔ ∀ s ∈ offered, s ∉ allRsaSchemes := by
      simp only [SigningKey.chooseScheme, List.find?_eq_none]
      constructor
      · exact fun h s hs ha => h s ha (by simpa using hs)
      · exact fun h s ha hs => h s (by simpa using hs) ha
    refine ⟨fun s => ⟨fun h => ?_, fun h => ?_⟩, ?_, fun s hs R message rnd => ?_⟩
    · obtain ⟨h1, h2, h3⟩ := fwd s h
      exact ⟨h1, fits_rsa.2 h2, own s, fun s' hs' hf _ => h3 s' hs' (fits_rsa.1 hf)⟩
    · obtain ⟨h1, h2, -, h4⟩ := h
      cases hc : (SigningKey.rsa p).chooseScheme offered with
      | none => exact absurd (fits_rsa.1 h2) (non.1 hc s h1)
      | some s' =>
        obtain ⟨k1, k2, k3⟩ := fwd s' hc
        rw [UInt16.le_antisymm (h4 s' k1 (fits_rsa.2 k2) (own s')) (k3 s h1 (fits_rsa.1 h2))]
    · rw [non]
      exact ⟨fun h s hs hf => (h s hs (fits_rsa.1 hf)).elim, fun h s hs ha => h s hs (fits_rsa.2 ha) (own s)⟩
    · obtain ⟨-, h2, -⟩ := fwd s hs
      simp only [allRsaSchemes, List.mem_cons, List.not_mem_nil, or_false] at h2
      rcases h2 with rfl | rfl | rfl | rfl | rfl | rfl
      · exact ⟨(made R p message rnd [] .rsaPssSha512).1, fun sig => by
          rw [uniq 0x0806 .rsaPssSha512 _ .pss512]; exact (made R p message rnd sig .rsaPssSha512).2⟩
      · exact ⟨(made R p message rnd [] .rsaPssSha384).1, fun sig => by
          rw [uniq 0x0805 .rsaPssSha384 _ .pss384]; exact (made R p message rnd sig .rsaPssSha384).2⟩
      · exact ⟨(made R p message rnd [] .rsaPssSha256).1, fun sig => by
          rw [uniq 0x0804 .rsaPssSha256 _ .pss256]; exact (made R p message rnd sig .rsaPssSha256).2⟩
      · exact ⟨(made R p message rnd [] .rsaPkcs1Sha512).1, fun sig => by
          rw [uniq 0x0601 .rsaPkcs1Sha512 _ .pkcs512]; exact (made R p message rnd sig .rsaPkcs1Sha512).2⟩
      · exact ⟨(made R p message rnd [] .rsaPkcs1Sha384).1, fun sig => by
          rw [uniq 0x0501 .rsaPkcs1Sha384 _ .pkcs384]; exact (made R p message rnd sig .rsaPkcs1Sha384).2⟩
      · exact ⟨(made R p message rnd [] .rsaPkcs1Sha256).1, fun sig => by
          rw [uniq 0x0401 .rsaPkcs1Sha256 _ .pkcs256]; exact (made R p message rnd sig .rsaPkcs1Sha256).2⟩

/-! ## The configuration -/

theorem config_ok {E : Env} {c : TlsClientConfig} {cfg : ClientCfg} (h : createClientConfig E c = .ok cfg) :
    ∃ anchors r, c.rootStore.map E.pki.anchor = anchors.map some ∧ resolverOf E.ring c.clientAuth = .ok r ∧
      cfg = newInner E anchors c.serverName r := by
  unfold createClientConfig at h
  cases ha : E.pki.anchors c.rootStore with
  | error e => rw [ha] at h; cases h
  | ok anchors =>
    rw [ha] at h
    simp only at h
    cases hr : resolverOf E.ring c.clientAuth with
    | error e => rw [hr] at h; cases h
    | ok r =>
      rw [hr] at h
      cases h
      exact ⟨anchors, r, ((Pki.C107_roots E.pki c.rootStore).1 anchors).1 ha, rfl, rfl⟩

theorem resolver_ok {R : Ring} {a : Option (List Bytes × Bytes)} {r : Resolver} (h : resolverOf R a = .ok r) :
    (a = none ∧ r = .fail) ∨ ∃ chain der key, a = some (chain, der) ∧ anySupported R der = some key ∧ r = .always chain key := by
  unfold resolverOf at h
  split at h
  · cases h
    exact .inl ⟨rfl, rfl⟩
  · rename_i chain der
    split at h
    · cases h
    · rename_i key hk
      cases h
      exact .inr ⟨chain, der, key, rfl, hk, rfl⟩

theorem newInner_configured (E : Env) (anchors : List Bytes) (name : Bytes) (r : Resolver) :
    Pki.Configured E.pki anchors (newInner E anchors name r) where
  cert leaf is name scts ocsp now := by
    simp only [newInner]
    cases E.pki.clientVerifyCert anchors none leaf is name scts now <;> simp
  sig message cert dss := by
    simp only [newInner]
    cases E.pki.verifySignedStruct message cert dss.scheme dss.sig <;> simp
  schemes := rfl

/-- C111: a client can be configured if and only if all of the roots can be read, and the key of the client if it has one.  It then checks servers
against all of these roots and against the name, offers the schemes of which it accepts signatures, and has an identity if and only if one is
given. -/
theorem C111_config (E : Env) (c : TlsClientConfig) :
    ((∃ cfg, createClientConfig E c = .ok cfg) ↔ (∀ x ∈ c.rootStore, (E.pki.anchor x).isSome) ∧
      ∀ chain der, c.clientAuth = some (chain, der) → (anySupported E.ring der).isSome) ∧
    (∀ cfg, createClientConfig E c = .ok cfg → ∃ anchors, c.rootStore.map E.pki.anchor = anchors.map some ∧
      Pki.Configured E.pki anchors cfg ∧ cfg.serverName = c.serverName ∧ cfg.sni = E.sni c.serverName ∧ cfg.enableSni = true ∧
      cfg.alpn = [] ∧ (cfg.hasClientCerts = true ↔ c.clientAuth.isSome) ∧
      ∀ cas offered chain scheme, cfg.resolve cas offered = some (chain, scheme) ↔
        ∃ key, HasIdentity E.ring c chain key ∧ key.chooseScheme offered = some scheme) ∧
    (∀ x, createClientConfig E c = .error (.root x) → x ∈ c.rootStore ∧ E.pki.anchor x = none) ∧
    (createClientConfig E c = .error .key → ∃ chain der, c.clientAuth = some (chain, der) ∧ anySupported E.ring der = none) := by
  refine ⟨⟨?_, ?_⟩, ?_, ?_, ?_⟩
  · rintro ⟨cfg, h⟩
    obtain ⟨anchors, r, h1, h2, -⟩ := config_ok h
    constructor
    · intro x hx
      have : E.pki.anchor x ∈ anchors.map some := h1 ▸ List.mem_map_of_mem hx
      obtain ⟨a, -, ha⟩ := List.mem_map.1 this
      rw [← ha]
      rfl
    · intro chain der hc
      rcases resolver_ok h2 with ⟨hn, -⟩ | ⟨chain', der', key, he, hk, -⟩
      · rw [hn] at hc; cases hc
      · rw [he] at hc
        cases hc
        rw [hk]
        rfl
  · rintro ⟨h1, h2⟩
    unfold createClientConfig
    cases ha : E.pki.anchors c.rootStore with
    | error e =>
      obtain ⟨k1, k2⟩ := (Pki.C107_roots E.pki c.rootStore).2 e ha
      have := h1 e k1
      rw [k2] at this
      cases this
    | ok anchors =>
      simp only
      cases hr : resolverOf E.ring c.clientAuth with
      | ok r => exact ⟨_, rfl⟩
      | error e =>
        unfold resolverOf at hr
        split at hr
        · cases hr
        · rename_i chain der he
          split at hr
          · rename_i hn
            have := h2 chain der he
            rw [hn] at this
            cases this
          · cases hr
  · intro cfg h
    obtain ⟨anchors, r, h1, h2, rfl⟩ := config_ok h
    refine ⟨anchors, h1, newInner_configured E anchors _ r, rfl, rfl, rfl, rfl, ?_, ?_⟩
    · rcases resolver_ok h2 with ⟨hn, rfl⟩ | ⟨chain, der, key, he, hk, rfl⟩
      · simp [newInner, Resolver.hasCerts, hn]
      · simp [newInner, Resolver.hasCerts, he]
    · intro cas offered chain scheme
      rcases resolver_ok h2 with ⟨hn, rfl⟩ | ⟨chain', der, key, he, hk, rfl⟩
      · simp [newInner, Resolver.resolve, Resolver.certifiedKey, HasIdentity, hn]
      · simp only [newInner, Resolver.resolve, Resolver.certifiedKey, HasIdentity, he]
        constructor
        · intro h
          cases hs : key.chooseScheme offered with
          | none => rw [hs] at h; cases h
          | some s =>
            rw [hs] at h
            cases h
            exact ⟨key, ⟨der, rfl, hk⟩, hs⟩
        · rintro ⟨key', ⟨der', e1, e2⟩, e3⟩
          cases e1
          rw [hk] at e2
          cases e2
          rw [e3]
  · intro x h
    unfold createClientConfig at h
    cases ha : E.pki.anchors c.rootStore with
    | error e =>
      rw [ha] at h
      cases h
      exact (Pki.C107_roots E.pki c.rootStore).2 _ ha
    | ok anchors =>
      rw [ha] at h
      simp only at h
      cases hr : resolverOf E.ring c.clientAuth with
      | ok r => rw [hr] at h; cases h
      | error e =>
        rw [hr] at h
        cases h
        unfold resolverOf at hr
        split at hr
        · cases hr
        · split at hr <;> cases hr
  · intro h
    unfold createClientConfig at h
    cases ha : E.pki.anchors c.rootStore with
    | error e => rw [ha] at h; cases h
    | ok anchors =>
      rw [ha] at h
      simp only at h
      cases hr : resolverOf E.ring c.clientAuth with
      | ok r => rw [hr] at h; cases h
      | error e =>
        unfold resolverOf at hr
        split at hr
        · cases hr
        · rename_i chain der he
          split at hr
          · rename_i hn
            exact ⟨chain, der, he, hn⟩
          · cases hr

/-- C111: a configuration is built if and only if it has a server name and roots; it is what was given. -/
theorem C111_builder (b : TlsConfigBuilder) (c : TlsClientConfig) :
    b.build = .ok c ↔ b.serverName = some c.serverName ∧ b.rootStore = some c.rootStore ∧ b.clientAuth = c.clientAuth := by
  obtain ⟨n, r, a⟩ := b
  obtain ⟨n', r', a'⟩ := c
  cases n <;> cases r <;> simp [TlsConfigBuilder.build]

/-! ## The client's identity -/

theorem transcript_significant (log : List Ev) : transcriptOf (significant log) = transcriptOf log := by
  induction log with
  | nil => rfl
  | cons e es ih =>
    rw [show e :: es = [e] ++ es from rfl, Client.significant_append, Client.transcriptOf_append, Client.transcriptOf_append, ih]
    congr 1
    cases hs : e.significant with
    | true => simp [significant, hs]
    | false =>
      have : significant [e] = [] := by simp [significant, hs]
      rw [this]
      cases e with
      | clear m => cases m <;> first | rfl | cases hs
      | protect m => cases m <;> first | rfl | cases hs
      | _ => first | rfl | cases hs

variable {E : Env} {c : TlsClientConfig} {cfg : ClientCfg}

theorem upToDone_mem (d : Session) {e : Ev} : e ∈ d.upToDone ↔
    e ∈ d.hello ∨ e = .handle (.handshake ⟨d.shTyp, .serverHello d.sh⟩) ∨ e = .handle (.handshake ⟨d.certTyp, .certificate d.chain⟩) ∨
    (∃ s, d.status = some s ∧ e = .handle (.handshake ⟨s.1, .certificateStatus s.2⟩)) ∨
    e = .handle (.handshake ⟨d.kxTyp, .serverKeyExchange d.kxBytes⟩) ∨
    (∃ r, d.request = some r ∧ e = .handle (.handshake ⟨r.1, .certificateRequest r.2⟩)) ∨ e = .handle (.handshake ⟨d.doneTyp, .serverHelloDone⟩) := by
  have h1 : e ∈ (d.status.toList.map fun s => Ev.handle (.handshake ⟨s.1, .certificateStatus s.2⟩)) ↔
      ∃ s, d.status = some s ∧ e = .handle (.handshake ⟨s.1, .certificateStatus s.2⟩) := by
    cases d.status <;> simp
  have h2 : e ∈ (d.request.toList.map fun r => Ev.handle (.handshake ⟨r.1, .certificateRequest r.2⟩)) ↔
      ∃ r, d.request = some r ∧ e = .handle (.handshake ⟨r.1, .certificateRequest r.2⟩) := by
    cases d.request <;> simp
  simp only [Session.upToDone, Session.upToRequest, Session.upToKx, Session.upToStatus, Session.upToCertificate, Session.upToServerHello,
    List.mem_append, h1, h2, List.mem_singleton, or_assoc]

theorem shown_of (hcfg : createClientConfig E c = .ok cfg) (d : Session) (hk : d.Kx) (hv : d.Verified cfg) (pre : List Ev)
    (hp : d.upToDone ++ [.now d.now] <+: significant pre) : ServerShown E.pki c pre := by
  have hin : ∀ {e : Ev}, e ∈ d.upToDone ++ [.now d.now] → e ∈ pre := fun he => List.mem_of_mem_filter (hp.subset he)
  have hin' : ∀ {e : Ev}, e ∈ d.upToDone → e ∈ pre := fun he => hin (List.mem_append_left _ he)
  obtain ⟨anchors, h1, h2, h3, -⟩ := (C111_config E c).2.1 cfg hcfg
  obtain ⟨⟨leaf, is, k1, k2, k3⟩, -⟩ := hv
  obtain ⟨secs, c1, -, c2, -⟩ := (Pki.C107_client _ _ _ _ _ _ _ _).1 ((h2.cert _ _ _ _ _ _).1 k2)
  have hsecs : secs = d.now / 1000000000 := by omega
  refine ⟨anchors, leaf, is, d.certTyp, d.now, d.random, d.shTyp, d.sh, d.kxTyp, d.kxBytes, d.kx, h1, ?_, ?_, ?_, ?_, ?_, ?_, hk, ?_⟩
  · rw [← k1]
    exact hin' ((upToDone_mem d).2 (.inr (.inr (.inl rfl))))
  · exact hin (by simp)
  · rw [← hsecs, ← h3]
    exact c2
  · exact hin' ((upToDone_mem d).2 (.inl (by simp [Session.hello])))
  · exact hin' ((upToDone_mem d).2 (.inr (.inl rfl)))
  · exact hin' ((upToDone_mem d).2 (.inr (.inr (.inr (.inr (.inl rfl))))))
  · exact (Pki.C106_accepted _ _ _ _ _).1.1 ((h2.sig _ _ _).1 k3)

theorem identity_of (hcfg : createClientConfig E c = .ok cfg) (d : Session) {chain : List Bytes} {scheme : UInt16}
    (hi : d.identity cfg = some (chain, scheme)) (pre : List Ev) (hp : d.upToDone ++ [.now d.now] <+: significant pre) :
    ∃ key offered, HasIdentity E.ring c chain key ∧ AskedWith offered pre ∧ key.chooseScheme offered = some scheme := by
  obtain ⟨anchors, -, -, -, -, -, -, -, h2⟩ := (C111_config E c).2.1 cfg hcfg
  unfold Session.identity at hi
  cases hr : d.request with
  | none => rw [hr] at hi; cases hi
  | some r =>
    rw [hr] at hi
    obtain ⟨key, k1, k2⟩ := (h2 _ _ _ _).1 hi
    refine ⟨key, r.2.sigSchemes, k1, ⟨r.1, r.2, ?_, rfl⟩, k2⟩
    exact List.mem_of_mem_filter (hp.subset (List.mem_append_left _ ((upToDone_mem d).2 (.inr (.inr (.inr (.inr (.inr (.inl ⟨r, hr, rfl⟩)))))))))

theorem upToClientKx_done (d : Session) : d.upToDone ++ [.now d.now] <+: d.upToClientKx cfg := by
  unfold Session.upToClientKx Session.upToClientCert
  exact (List.prefix_append _ _).trans (List.prefix_append _ _)

/-- C110: the client sends a certificate only to a server that has shown who it is and that has asked for one.  It is the chain of
the configuration if the server offers a scheme that goes with the key, and no certificate otherwise. -/
theorem C110_certificate (hcfg : createClientConfig E c = .ok cfg) (W : World) (c0 : Conn) (h : Conn.new cfg = .ok c0) (calls : List Call)
    (pre post : List Ev) (typ : UInt8) (chain : List Bytes)
    (hl : (c0.run cfg W calls).1.io.common.log = pre ++ .clear (.handshake ⟨typ, .certificate chain⟩) :: post) :
    ServerShown E.pki c pre ∧ ∃ offered, AskedWith offered pre ∧
      ((∃ key s, HasIdentity E.ring c chain key ∧ s ∈ offered ∧ Fits key s ∧ OwnHash key s) ∨
        (chain = [] ∧ ∀ chain' key, HasIdentity E.ring c chain' key → ∀ s ∈ offered, Fits key s → ¬ OwnHash key s)) := by
  obtain ⟨-, h1, -⟩ := (Client.run_inv W c0 h calls).weak.good.at hl
  obtain ⟨d, -, -, -, hk, hv, hs, hr, hc⟩ := h1 typ chain rfl
  refine ⟨shown_of hcfg d hk hv pre (hs ▸ List.prefix_rfl), ?_⟩
  obtain ⟨r, hr⟩ := Option.isSome_iff_exists.1 hr
  have hasked : AskedWith r.2.sigSchemes pre := ⟨r.1, r.2, by
    have : Ev.handle (.handshake ⟨r.1, .certificateRequest r.2⟩) ∈ significant pre := by
      rw [hs]
      exact List.mem_append_left _ ((upToDone_mem d).2 (.inr (.inr (.inr (.inr (.inr (.inl ⟨r, hr, rfl⟩)))))))
    exact List.mem_of_mem_filter this, rfl⟩
  refine ⟨_, hasked, ?_⟩
  obtain ⟨anchors, -, -, -, -, -, -, -, hres⟩ := (C111_config E c).2.1 cfg hcfg
  cases hi : d.identity cfg with
  | some x =>
    obtain ⟨chain', scheme⟩ := x
    rw [hi] at hc
    simp only [Option.elim] at hc
    subst hc
    unfold Session.identity at hi
    rw [hr] at hi
    obtain ⟨key, k1, k2⟩ := (hres _ _ _ _).1 hi
    obtain ⟨e1, e2, e3, -⟩ := ((C110_scheme key _).1 _).1 k2
    exact .inl ⟨key, scheme, k1, e1, e2, e3⟩
  | none =>
    rw [hi] at hc
    refine .inr ⟨hc, fun chain' key hid => ?_⟩
    rw [← (C110_scheme key _).2.1]
    cases hch : key.chooseScheme r.2.sigSchemes with
    | none => rfl
    | some s =>
      have : cfg.resolve r.2.caNames r.2.sigSchemes = some (chain', s) := (hres _ _ _ _).2 ⟨key, hid, hch⟩
      unfold Session.identity at hi
      rw [hr] at hi
      rw [show (some r).bind (fun r => cfg.resolve r.2.caNames r.2.sigSchemes) = some (chain', s) from this] at hi
      cases hi

/-- C110: the client's key signs only all the handshake messages so far, with a scheme that the server has offered and that goes with the
key, in a handshake with a server that has shown who it is and has asked for a certificate, after the configured chain was sent. -/
theorem C110_sign (hcfg : createClientConfig E c = .ok cfg) (W : World) (c0 : Conn) (h : Conn.new cfg = .ok c0) (calls : List Call)
    (pre post : List Ev) (scheme : UInt16) (message : Bytes) (r : Client.Reply Bytes)
    (hl : (c0.run cfg W calls).1.io.common.log = pre ++ .sign scheme message r :: post) :
    ServerShown E.pki c pre ∧ message = transcriptOf pre ∧ ∃ chain key offered, HasIdentity E.ring c chain key ∧
      AskedWith offered pre ∧ key.chooseScheme offered = some scheme ∧ (∃ typ, Ev.clear (.handshake ⟨typ, .certificate chain⟩) ∈ pre) ∧
      r = W.sign pre scheme message := by
  obtain ⟨d, hok, ⟨chain, hi⟩, hs, hm⟩ := (Client.run_inv W c0 h calls).weak.good.at hl
  have hp : d.upToDone ++ [.now d.now] <+: significant pre := hs ▸ upToClientKx_done d
  obtain ⟨key, offered, k1, k2, k3⟩ := identity_of hcfg d hi pre hp
  refine ⟨shown_of hcfg d hok.kx hok.verified pre hp, ?_, chain, key, offered, k1, k2, k3, ⟨0x0b, ?_⟩, Client.C81_answers W c0 h calls _ _ _ hl⟩
  · rw [hm, ← hs, transcript_significant]
  · have hreq : d.request.isSome = true := by
      unfold Session.identity at hi
      cases hr : d.request with
      | none => rw [hr] at hi; cases hi
      | some r => rfl
    have : Ev.clear (.handshake ⟨0x0b, .certificate chain⟩) ∈ significant pre := by
      rw [hs]
      simp [Session.upToClientKx, Session.upToClientCert, hreq, hi]
    exact List.mem_of_mem_filter this

/-- C110: the signature that is sent is the one that was made. -/
theorem C110_verify (W : World) (c0 : Conn) (h : Conn.new cfg = .ok c0) (calls : List Call)
    (pre post : List Ev) (typ : UInt8) (dss : DigitallySigned)
    (hl : (c0.run cfg W calls).1.io.common.log = pre ++ .clear (.handshake ⟨typ, .certificateVerify dss⟩) :: post) :
    ∃ a b, pre = a ++ .sign dss.scheme (transcriptOf pre) (.ok dss.sig) :: b := by
  obtain ⟨-, -, h1⟩ := (Client.run_inv W c0 h calls).weak.good.at hl
  obtain ⟨d, -, -, hs⟩ := h1 typ dss rfl
  have ht : transcriptOf (d.upToClientKx cfg) = transcriptOf pre := by
    rw [← transcript_significant pre, hs, Client.transcriptOf_append]
    simp [transcriptOf, Ev.transcript]
  rw [ht] at hs
  have : Ev.sign dss.scheme (transcriptOf pre) (.ok dss.sig) ∈ significant pre := by rw [hs]; simp
  exact List.append_of_mem (List.mem_of_mem_filter this)

/-- The certificates that a client sends. -/
def sentChain : Ev → Option (List Bytes)
  | .clear (.handshake ⟨_, .certificate chain⟩) => some chain
  | _ => none

/-- The messages that it signs. -/
def signed : Ev → Option Bytes
  | .sign _ message _ => some message
  | _ => none

/-- The signatures that it sends. -/
def sentVerify : Ev → Option DigitallySigned
  | .clear (.handshake ⟨_, .certificateVerify dss⟩) => some dss
  | _ => none

theorem none_upToDone {α : Type} (f : Ev → Option α) (hf : ∀ m, f (.handle m) = none) (hh : ∀ d : Session, eventsOf f d.hello = []) (d : Session) :
    eventsOf f d.upToDone = [] := by
  unfold eventsOf
  rw [List.filterMap_eq_nil_iff]
  intro e he
  rcases (upToDone_mem d).1 he with h | rfl | rfl | ⟨s, -, rfl⟩ | rfl | ⟨r, -, rfl⟩ | rfl
  · have := hh d
    unfold eventsOf at this
    exact List.filterMap_eq_nil_iff.1 this e h
  all_goals exact hf _

/-- C110: in a connection the client sends a certificate, signs and sends a signature at most once each; without an identity in its
configuration it sends no certificate other than an empty one, and signs nothing. -/
theorem C110_once (hcfg : createClientConfig E c = .ok cfg) (W : World) (c0 : Conn) (h : Conn.new cfg = .ok c0) (calls : List Call) :
    let log := (c0.run cfg W calls).1.io.common.log
    (eventsOf sentChain log).length ≤ 1 ∧ (eventsOf signed log).length ≤ 1 ∧ (eventsOf sentVerify log).length ≤ 1 ∧
    (c.clientAuth = none → (∀ chain ∈ eventsOf sentChain log, chain = []) ∧ eventsOf signed log = [] ∧ eventsOf sentVerify log = []) := by
  intro log
  have hg := (Client.run_inv W c0 h calls).weak.good
  have e1 : ∀ d : Session, eventsOf signed (d.upToClientKx cfg) = [] := by
    intro d
    have h1 := none_upToDone signed (fun _ => rfl) (fun _ => rfl) d
    have h2 := Client.eventsOf_cert (cfg := cfg) signed (fun _ => rfl) d
    simp only [Session.upToClientKx, Session.upToClientCert, Client.eventsOf_append, h1, h2]
    rfl
  have e2 : ∀ d : Session, eventsOf sentVerify (d.upToClientKx cfg) = [] := by
    intro d
    have h1 := none_upToDone sentVerify (fun _ => rfl) (fun _ => rfl) d
    have h2 : eventsOf sentVerify
        (if d.request.isSome then [.clear (.handshake ⟨0x0b, .certificate ((d.identity cfg).elim [] (·.1))⟩)] else []) = [] := by
      split <;> rfl
    simp only [Session.upToClientKx, Session.upToClientCert, Client.eventsOf_append, h1, h2]
    rfl
  have s1 : ∀ e, (sentChain e).isSome → ∃ typ chain, e = .clear (.handshake ⟨typ, .certificate chain⟩) ∧ sentChain e = some chain := by
    intro e he
    unfold sentChain at he ⊢
    split at he
    · exact ⟨_, _, rfl, rfl⟩
    · cases he
  have s2 : ∀ e, (sentVerify e).isSome → ∃ typ dss, e = .clear (.handshake ⟨typ, .certificateVerify dss⟩) := by
    intro e he
    unfold sentVerify at he
    split at he
    · exact ⟨_, _, rfl⟩
    · cases he
  have s3 : ∀ e, (signed e).isSome → ∃ s m r, e = .sign s m r := by
    intro e he
    unfold signed at he
    split at he
    · exact ⟨_, _, _, rfl⟩
    · cases he
  refine ⟨Client.once_of _ ?_ ?_, Client.once_of _ ?_ ?_, Client.once_of _ ?_ ?_, fun hno => ⟨?_, ?_, ?_⟩⟩
  · intro e he
    obtain ⟨_, _, rfl, -⟩ := s1 e he
    rfl
  · intro pre e post hl he
    obtain ⟨typ, chain, rfl, -⟩ := s1 e he
    obtain ⟨-, h1, -⟩ := hg.at hl
    obtain ⟨d, -, -, -, -, -, hs, -⟩ := h1 typ chain rfl
    rw [hs, Client.eventsOf_append, none_upToDone sentChain (fun _ => rfl) (fun _ => rfl) d]
    rfl
  · intro e he
    obtain ⟨_, _, _, rfl⟩ := s3 e he
    rfl
  · intro pre e post hl he
    obtain ⟨_, _, _, rfl⟩ := s3 e he
    obtain ⟨d, -, -, hs, -⟩ := hg.at hl
    rw [hs, e1 d]
  · intro e he
    obtain ⟨_, _, rfl⟩ := s2 e he
    rfl
  · intro pre e post hl he
    obtain ⟨typ, dss, rfl⟩ := s2 e he
    obtain ⟨-, -, h1⟩ := hg.at hl
    obtain ⟨d, -, -, hs⟩ := h1 typ dss rfl
    rw [hs, Client.eventsOf_append, e2 d]
    rfl
  · intro chain hc
    obtain ⟨e, he, hx⟩ := List.mem_filterMap.1 hc
    obtain ⟨typ, chain', rfl, hy⟩ := s1 e (by rw [hx]; rfl)
    obtain rfl : chain' = chain := Option.some.inj (hy.symm.trans hx)
    obtain ⟨pre, post, hl⟩ := List.append_of_mem he
    obtain ⟨-, offered, -, ⟨key, s, ⟨der, hd, -⟩, -⟩ | ⟨hn, -⟩⟩ := C110_certificate hcfg W c0 h calls pre post typ _ hl
    · rw [hno] at hd; cases hd
    · exact hn
  · unfold eventsOf
    rw [List.filterMap_eq_nil_iff]
    intro e he
    by_contra hne
    obtain ⟨s, m, r, rfl⟩ := s3 e (Option.isSome_iff_ne_none.2 hne)
    obtain ⟨pre, post, hl⟩ := List.append_of_mem he
    obtain ⟨-, -, chain, key, offered, ⟨der, hd, -⟩, -⟩ := C110_sign hcfg W c0 h calls pre post s m r hl
    rw [hno] at hd
    cases hd
  · unfold eventsOf
    rw [List.filterMap_eq_nil_iff]
    intro e he
    by_contra hne
    obtain ⟨typ, dss, rfl⟩ := s2 e (Option.isSome_iff_ne_none.2 hne)
    obtain ⟨pre, post, hl⟩ := List.append_of_mem he
    obtain ⟨a, b, hab⟩ := C110_verify W c0 h calls pre post typ dss hl
    have hl' : (c0.run cfg W calls).1.io.common.log = a ++ .sign dss.scheme (transcriptOf pre) (.ok dss.sig) :: (b ++ .clear (.handshake ⟨typ, .certificateVerify dss⟩) :: post) := by
      refine hl.trans ?_
      conv_lhs => rw [hab]
      simp
    obtain ⟨-, -, chain, key, offered, ⟨der, hd, -⟩, -⟩ := C110_sign hcfg W c0 h calls _ _ _ _ _ hl'
    rw [hno] at hd
    cases hd

/-- C110: if the key belongs to the certificate, the server accepts the signature: it is one of the certificate's key, by the scheme that is named, over all
handshake messages before it. -/
theorem C110_accepted (hcfg : createClientConfig E c = .ok cfg) (W : World) (c0 : Conn) (h : Conn.new cfg = .ok c0) (calls : List Call)
    (leaf : Bytes) (rest : List Bytes) (key : SigningKey) (hid : HasIdentity E.ring c (leaf :: rest) key)
    (hsign : ∀ log s m sig, W.sign log s m = .ok sig → ∃ rnd, key.sign E.ring s m rnd = .ok sig)
    (hparse : E.pki.parses leaf = true) (halg : E.pki.keyAlg leaf = some key.alg)
    (hpair : ∀ kind m rnd sig, E.ring.sign key.pair kind m rnd = some sig → E.pki.raw leaf kind m sig = true)
    (pre post : List Ev) (typ : UInt8) (dss : DigitallySigned)
    (hl : (c0.run cfg W calls).1.io.common.log = pre ++ .clear (.handshake ⟨typ, .certificateVerify dss⟩) :: post) :
    (∃ t, Ev.clear (.handshake ⟨t, .certificate (leaf :: rest)⟩) ∈ pre) ∧
    Pki.Signed E.pki leaf (transcriptOf pre) dss.scheme dss.sig ∧
    E.pki.verifySignedStruct (transcriptOf pre) leaf dss.scheme dss.sig = .ok () := by
  obtain ⟨a, b, hab⟩ := C110_verify W c0 h calls pre post typ dss hl
  have hl' : (c0.run cfg W calls).1.io.common.log = a ++ .sign dss.scheme (transcriptOf pre) (.ok dss.sig) :: (b ++ .clear (.handshake ⟨typ, .certificateVerify dss⟩) :: post) := by
    rw [hl]
    conv_lhs => rw [hab]
    simp
  obtain ⟨-, hm, chain, key', offered, hid', -, hch, ⟨t, ht⟩, hr⟩ := C110_sign hcfg W c0 h calls _ _ _ _ _ hl'
  obtain ⟨der, d1, d2⟩ := hid
  obtain ⟨der', d1', d2'⟩ := hid'
  rw [d1] at d1'
  cases d1'
  rw [d2] at d2'
  cases d2'
  obtain ⟨rnd, hsg⟩ := hsign _ _ _ _ hr.symm
  obtain ⟨kind, k1, k2⟩ := (((C110_scheme key offered).2.2 _ hch E.ring (transcriptOf pre) rnd).2 _).1 hsg
  obtain ⟨-, ⟨kind', f1, f2⟩, -⟩ := ((C110_scheme key offered).1 _).1 hch
  obtain rfl := scheme_unique k1 f1
  have hS : Pki.Signed E.pki leaf (transcriptOf pre) dss.scheme dss.sig := ⟨hparse, key.alg, kind', halg, k1, f2, hpair _ _ _ _ k2⟩
  exact ⟨⟨t, by rw [hab]; exact List.mem_append_left _ ht⟩, hS, (Pki.C106_accepted _ _ _ _ _).1.2 hS⟩

/-- C108, for this client, in part as there: a verifier with the same roots accepts the handshake data of a session of a client that was
configured with them.  Missing: servers with keys on P-384. -/
theorem C108_same_roots_partial (hcfg : createClientConfig E c = .ok cfg) (W : World) (c0 : Conn) (h0 : Conn.new cfg = .ok c0) (calls : List Call)
    (D : Mpc.Deps) (hD : ∀ cert m s g alg, D.sigAlg cert m s g = some alg ↔ E.pki.determineAlg cert m s g = .ok alg) (lim : Mpc.Limits)
    (sk : Nat) (vm : Hmac.Vm) (hvm : vm.Fresh) (defer : Bool) (lc : List (Mpc.LCall × Mpc.World)) (hl : lc.length ≤ 2 ^ 64)
    (honce : Mpc.VdOnce lc) (hfine : ∀ r ∈ ((Mpc.Leader.new sk vm defer).run D lim lc).2, r.2.Fine)
    (hdriven : Pki.Driven (c0.run cfg W calls).1.io.common.log lc) (ms : List Mpc.Msg) (t : TlsTranscript)
    (ht : (ms, .finished (some t)) ∈ ((Mpc.Leader.new sk vm defer).run D lim lc).2)
    (hstill : ∀ anchors leaf is, c.rootStore.map E.pki.anchor = anchors.map some → t.serverCertChain = some (leaf :: is) →
      E.pki.path anchors leaf is t.time = true)
    (hkey : ∀ leaf is, t.serverCertChain = some (leaf :: is) → E.pki.keyAlg leaf ≠ some .p384) :
    ∃ V d, E.pki.newVerifier c.rootStore = .ok V ∧ Pki.handshakeOf t = some d ∧
      d.verify V t.time t.certificateBinding.serverEphemeralKey c.serverName = .ok () := by
  obtain ⟨anchors, h1, h2, h3, -⟩ := (C111_config E c).2.1 cfg hcfg
  obtain ⟨d, d1, d2⟩ := Pki.C108_verifier_accepts_partial E.pki anchors cfg h2 W c0 h0 calls D hD lim sk vm hvm defer lc hl honce hfine
    hdriven ms t ht (fun leaf is => hstill anchors leaf is h1) hkey
  refine ⟨E.pki.certVerifier anchors, d, ?_, d1, h3 ▸ d2⟩
  unfold Pki.WebPki.newVerifier
  rw [((Pki.C107_roots E.pki c.rootStore).1 anchors).2 h1]

end Tlsn.ClientAuth
