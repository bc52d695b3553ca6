import Verif.Wasm.Binding
import Verif.Sdk.MachineProps
import Verif.ClientAuth.Identity

/-! # C114 and C115: what JavaScript asks for is what the SDK does -/

namespace Tlsn.Wasm

open Tlsn.Sdk (Text PState PCall PReply Ext SdkProverConfig SdkVerifierConfig)
open Tlsn.ClientAuth (TlsClientConfig createClientConfig anySupported HasIdentity)

/-! ## Roots -/

theorem checkRoots_ok (R : Reads) (certs roots : List Bytes) (i : Nat) :
    checkRoots R i certs = .ok roots ↔ roots = certs ∧ ∀ x ∈ certs, (R.anchor x).isSome := by
  induction certs generalizing i roots with
  | nil =>
    simp only [checkRoots, Except.ok.injEq, List.not_mem_nil, false_implies, implies_true, and_true]
    exact eq_comm
  | cons c cs ih =>
    unfold checkRoots
    cases ha : R.anchor c with
    | none => simp [ha]
    | some a =>
      simp only
      cases hr : checkRoots R (i + 1) cs with
      | error e =>
        simp only [reduceCtorEq, false_iff]
        rintro ⟨-, hall⟩
        have := (ih cs (i + 1)).2 ⟨rfl, fun x hx => hall x (List.mem_cons_of_mem _ hx)⟩
        rw [hr] at this
        cases this
      | ok rest =>
        obtain ⟨rfl, hall⟩ := (ih rest (i + 1)).1 hr
        simp only [Except.ok.injEq]
        constructor
        · rintro rfl
          refine ⟨rfl, fun x hx => ?_⟩
          rcases List.mem_cons.1 hx with rfl | hx
          · rw [ha]; rfl
          · exact hall x hx
        · rintro ⟨rfl, -⟩
          rfl

theorem checkRoots_error (R : Reads) (certs : List Bytes) (i : Nat) (e : RootError) :
    checkRoots R i certs = .error e ↔ ∃ n cert, e = .invalid (i + n) ∧ certs[n]? = some cert ∧ R.anchor cert = none ∧
      ∀ m x, m < n → certs[m]? = some x → (R.anchor x).isSome := by
  induction certs generalizing i with
  | nil => simp [checkRoots]
  | cons c cs ih =>
    unfold checkRoots
    cases ha : R.anchor c with
    | none =>
      simp only [Except.error.injEq]
      constructor
      · rintro rfl
        exact ⟨0, c, rfl, rfl, ha, fun m x hm => absurd hm (by omega)⟩
      · rintro ⟨n, cert, rfl, -, -, hb⟩
        cases n with
        | zero => rfl
        | succ n => have := hb 0 c (by omega) rfl; rw [ha] at this; cases this
    | some a =>
      simp only
      have key : checkRoots R (i + 1) cs = .error e ↔ ∃ n cert, e = .invalid (i + n) ∧ (c :: cs)[n]? = some cert ∧
          R.anchor cert = none ∧ ∀ m x, m < n → (c :: cs)[m]? = some x → (R.anchor x).isSome := by
        rw [ih (i + 1)]
        constructor
        · rintro ⟨n, cert, rfl, h1, h2, h3⟩
          refine ⟨n + 1, cert, by rw [Nat.add_assoc, Nat.add_comm 1 n], h1, h2, fun m x hm hx => ?_⟩
          cases m with
          | zero => simp only [List.getElem?_cons_zero, Option.some.injEq] at hx; rw [← hx, ha]; rfl
          | succ m => exact h3 m x (by omega) hx
        · rintro ⟨n, cert, rfl, h1, h2, h3⟩
          cases n with
          | zero => simp only [List.getElem?_cons_zero, Option.some.injEq] at h1; rw [← h1, ha] at h2; cases h2
          | succ n =>
            exact ⟨n, cert, by rw [Nat.add_assoc, Nat.add_comm 1 n], h1, h2, fun m x hm hx => h3 (m + 1) x (by omega) hx⟩
      rw [← key]
      cases checkRoots R (i + 1) cs <;> simp

/-- The roots that a caller asked for: the given ones, all of them readable, or else those of Mozilla. -/
def RootsFor (R : Reads) (given : Option (List Bytes)) (roots : List Bytes) : Prop :=
  match given with
  | some certs => roots = certs ∧ ∀ x ∈ certs, (R.anchor x).isSome
  | none => R.mozilla = some roots

theorem rootStore_ok (R : Reads) (given : Option (List Bytes)) (roots : List Bytes) :
    buildRootStore R given = .ok roots ↔ RootsFor R given roots := by
  cases given with
  | some certs => exact checkRoots_ok R certs roots 0
  | none =>
    unfold buildRootStore RootsFor
    cases hm : R.mozilla <;> simp

/-! ## C114: the configuration -/

theorem convert_eq (R : Reads) (c : JsProverConfig) :
    convertProverConfig R c = match buildRootStore R c.rootCerts with
      | .error e => .error e
      | .ok roots => .ok ⟨⟨c.serverName, (R.dns c.serverName).isSome, (match c.mode with | .mpc => .mpc | .proxy => .proxy),
          c.maxSentData, c.maxSentRecords, c.maxRecvDataOnline, c.maxRecvData, c.maxRecvRecordsOnline, c.deferDecryption,
          (match c.network with | .bandwidth => .bandwidth | .latency => .latency)⟩, c.clientAuth, roots⟩ := by
  obtain ⟨name, mode, s, sr, ro, r, rr, dd, net, auth, roots⟩ := c
  unfold convertProverConfig
  cases sr <;> cases ro <;> cases rr <;> cases dd <;> cases auth <;> cases roots <;> rfl

/-- **C114**: a configuration is accepted if and only if its roots can be read; then each setting is the one that
JavaScript gave, and a setting that was not given is left open. -/
theorem C114_config (R : Reads) (c : JsProverConfig) (core : CoreProverConfig) :
    convertProverConfig R c = .ok core ↔
      core.machine.serverName = c.serverName ∧ (core.machine.validName = true ↔ ∃ d, R.dns c.serverName = some d) ∧
      (core.machine.mode = .mpc ↔ c.mode = .mpc) ∧ core.machine.maxSentData = c.maxSentData ∧
      core.machine.maxRecvData = c.maxRecvData ∧ core.machine.maxSentRecords = c.maxSentRecords ∧
      core.machine.maxRecvDataOnline = c.maxRecvDataOnline ∧ core.machine.maxRecvRecordsOnline = c.maxRecvRecordsOnline ∧
      core.machine.deferDecryption = c.deferDecryption ∧ (core.machine.network = .bandwidth ↔ c.network = .bandwidth) ∧
      core.clientAuth = c.clientAuth ∧ RootsFor R c.rootCerts core.rootStore := by
  rw [convert_eq]
  obtain ⟨⟨cn, cv, cm, cs, csr, cro, cr, crr, cd, cnet⟩, cauth, croots⟩ := core
  constructor
  · intro h
    cases hb : buildRootStore R c.rootCerts with
    | error e => rw [hb] at h; cases h
    | ok roots =>
      rw [hb] at h
      simp only [Except.ok.injEq, CoreProverConfig.mk.injEq, SdkProverConfig.mk.injEq] at h
      obtain ⟨⟨rfl, rfl, rfl, rfl, rfl, rfl, rfl, rfl, rfl, rfl⟩, rfl, rfl⟩ := h
      refine ⟨rfl, by rw [Option.isSome_iff_exists], ?_, rfl, rfl, rfl, rfl, rfl, rfl, ?_, rfl, (rootStore_ok R _ _).1 hb⟩
      · cases c.mode <;> simp
      · cases c.network <;> simp
  · rintro ⟨h1, h2, h3, h4, h5, h6, h7, h8, h9, h10, h11, h12⟩
    rw [(rootStore_ok R _ _).2 h12]
    simp only at h1 h2 h3 h4 h5 h6 h7 h8 h9 h10 h11
    subst h1 h4 h5 h6 h7 h8 h9 h11
    have hv : (R.dns c.serverName).isSome = cv := by
      rw [Bool.eq_iff_iff, h2, Option.isSome_iff_exists]
    simp only [Except.ok.injEq, CoreProverConfig.mk.injEq, SdkProverConfig.mk.injEq, hv, and_self, and_true, true_and]
    refine ⟨?_, ?_⟩
    · cases hm : c.mode <;> cases cm <;> simp_all
    · cases hm : c.network <;> cases cnet <;> simp_all

/-- **C114**: the exception names the first root that cannot be read; without roots there is one if and only if those of
Mozilla are not built in. -/
theorem C114_error (R : Reads) (c : JsProverConfig) (e : RootError) :
    convertProverConfig R c = .error e ↔
      match e with
      | .invalid n => ∃ certs cert, c.rootCerts = some certs ∧ certs[n]? = some cert ∧ R.anchor cert = none ∧
          ∀ m x, m < n → certs[m]? = some x → (R.anchor x).isSome
      | .missing => c.rootCerts = none ∧ R.mozilla = none := by
  have h1 : convertProverConfig R c = .error e ↔ buildRootStore R c.rootCerts = .error e := by
    rw [convert_eq]
    cases buildRootStore R c.rootCerts <;> simp
  rw [h1]
  cases hr : c.rootCerts with
  | some certs =>
    rw [show buildRootStore R (some certs) = checkRoots R 0 certs from rfl, checkRoots_error]
    cases e with
    | missing => simp
    | invalid n =>
      simp only [RootError.invalid.injEq, Nat.zero_add, Option.some.injEq]
      constructor
      · rintro ⟨_, cert, rfl, h⟩; exact ⟨certs, cert, rfl, h⟩
      · rintro ⟨_, cert, rfl, h⟩; exact ⟨n, cert, rfl, h⟩
  | none =>
    unfold buildRootStore
    cases hm : R.mozilla <;> cases e <;> simp

/-- **C114**: `new` gives a prover if and only if the roots can be read, there is a name, and in MPC mode both limits are
above zero. -/
theorem C114_new (R : Reads) (c : JsProverConfig) :
    (newJsProver R c).isSome ↔ (∃ roots, RootsFor R c.rootCerts roots) ∧ c.serverName ≠ [] ∧
      (c.mode = .mpc → 0 < c.maxSentData ∧ 0 < c.maxRecvData) := by
  unfold newJsProver
  rw [convert_eq]
  cases hb : buildRootStore R c.rootCerts with
  | error e =>
    simp only [Option.isSome_none, Bool.false_eq_true, false_iff]
    rintro ⟨⟨roots, hr⟩, -⟩
    rw [(rootStore_ok R _ _).2 hr] at hb
    cases hb
  | ok roots =>
    have hr := (rootStore_ok R _ _).1 hb
    simp only
    unfold SdkProverConfig.accepted
    cases hn : c.serverName with
    | nil => simp
    | cons a as =>
      cases hm : c.mode with
      | proxy => simpa using ⟨roots, hr⟩
      | mpc =>
        by_cases h1 : c.maxSentData = 0
        · simp [h1]
        · by_cases h2 : c.maxRecvData = 0
          · simp [h2]
          · simp only [List.isEmpty_cons, Bool.false_eq_true, if_false, if_true, h1, h2, Option.isSome_some, true_iff]
            exact ⟨⟨roots, hr⟩, by simp, fun _ => ⟨by omega, by omega⟩⟩

/-- **C114**: in MPC mode the limits proposed to the verifier are those that JavaScript gave, with the defaults of the
protocol for the rest. -/
theorem C114_limits (R : Reads) (c : JsProverConfig) (core : CoreProverConfig) (h : convertProverConfig R c = .ok core)
    (m : MpcTlsConfig) (hm : core.machine.commitConfig = .ok m) :
    m.maxSentData = c.maxSentData ∧ m.maxRecvData = c.maxRecvData ∧ m.maxSentRecords = c.maxSentRecords ∧
      m.maxRecvRecordsOnline = c.maxRecvRecordsOnline ∧ m.maxRecvDataOnline = c.maxRecvDataOnline.getD 32 ∧
      m.deferDecryption = c.deferDecryption.getD true ∧ (m.network = .bandwidth ↔ c.network = .bandwidth) := by
  obtain ⟨-, -, -, h4, h5, h6, h7, h8, h9, h10, -, -⟩ := (C114_config R c core).1 h
  unfold SdkProverConfig.commitConfig MpcTlsConfigBuilder.build MpcTlsConfig.validate at hm
  simp only at hm
  split at hm
  · cases hm
  · simp only [Except.ok.injEq] at hm
    subst hm
    exact ⟨h4, h5, h6, h8, by rw [h7], by rw [h9], by simpa using h10⟩

/-- A client's certificate as it was given: in PEM if it is that, or the bytes themselves. -/
def GivenCert (R : Reads) (given cert : Bytes) : Prop :=
  R.pem given = some cert ∨ R.pem given = none ∧ cert = given

theorem readCert_given (R : Reads) (x cert : Bytes) : readCert R x = cert ↔ GivenCert R x cert := by
  unfold readCert GivenCert
  cases R.pem x <;> simp [eq_comm]

/-- **C114**: the TLS client that connects to the server checks it against exactly the roots and the name that
JavaScript gave, and presents the given chain and key, if they were given.  It can be made if and only if the name and the
key can be read. -/
theorem C114_client (R : Reads) (E : ClientAuth.Env) (hE : E.pki.anchor = R.anchor) (c : JsProverConfig) (roots : List Bytes)
    (hc : c.rootCerts = some roots) (core : CoreProverConfig) (h : convertProverConfig R c = .ok core) :
    ((∃ t cfg, core.tlsConfig R = .ok t ∧ createClientConfig E t = .ok cfg) ↔ (∃ name, R.dns c.serverName = some name) ∧
      ∀ certs key, c.clientAuth = some (certs, key) → (anySupported E.ring key).isSome) ∧
    ∀ t cfg, core.tlsConfig R = .ok t → createClientConfig E t = .ok cfg →
      ∃ anchors, roots.map R.anchor = anchors.map some ∧ Pki.Configured E.pki anchors cfg ∧
        R.dns c.serverName = some cfg.serverName ∧ (cfg.hasClientCerts = true ↔ c.clientAuth.isSome) ∧
        ∀ cas offered chain scheme, cfg.resolve cas offered = some (chain, scheme) →
          ∃ certs key k, c.clientAuth = some (certs, key) ∧ List.Forall₂ (GivenCert R) certs chain ∧
            anySupported E.ring key = some k ∧ k.chooseScheme offered = some scheme := by
  obtain ⟨h1, -, -, -, -, -, -, -, -, -, h11, h12⟩ := (C114_config R c core).1 h
  rw [hc] at h12
  obtain ⟨hroots, hall⟩ := h12
  have htls : ∀ t, core.tlsConfig R = .ok t ↔ R.dns c.serverName = some t.serverName ∧ t.rootStore = roots ∧
      t.clientAuth = c.clientAuth.map fun x => (x.1.map (readCert R), x.2) := by
    intro t
    unfold CoreProverConfig.tlsConfig
    rw [h1, h11, hroots]
    obtain ⟨tn, tr, ta⟩ := t
    cases hd : R.dns c.serverName with
    | none => simp
    | some name =>
      cases ha : c.clientAuth with
      | none =>
        simp only [ClientAuth.TlsConfigBuilder.build, Except.ok.injEq, ClientAuth.TlsClientConfig.mk.injEq, Option.some.injEq,
          Option.map_none]
        constructor
        · rintro ⟨rfl, rfl, rfl⟩; exact ⟨rfl, rfl, rfl⟩
        · rintro ⟨rfl, rfl, rfl⟩; exact ⟨rfl, rfl, rfl⟩
      | some p =>
        obtain ⟨certs, key⟩ := p
        simp only [ClientAuth.TlsConfigBuilder.build, Except.ok.injEq, ClientAuth.TlsClientConfig.mk.injEq, Option.some.injEq,
          Option.map_some]
        constructor
        · rintro ⟨rfl, rfl, rfl⟩; exact ⟨rfl, rfl, rfl⟩
        · rintro ⟨rfl, rfl, rfl⟩; exact ⟨rfl, rfl, rfl⟩
  constructor
  · constructor
    · rintro ⟨t, cfg, ht, hcfg⟩
      obtain ⟨t1, t2, t3⟩ := (htls t).1 ht
      refine ⟨⟨_, t1⟩, fun certs key hk => ?_⟩
      exact ((ClientAuth.C111_config E t).1.1 ⟨cfg, hcfg⟩).2 (certs.map (readCert R)) key (by rw [t3, hk]; rfl)
    · rintro ⟨⟨name, hn⟩, hk⟩
      have ht := (htls ⟨name, roots, c.clientAuth.map fun x => (x.1.map (readCert R), x.2)⟩).2 ⟨hn, rfl, rfl⟩
      obtain ⟨cfg, hcfg⟩ := (ClientAuth.C111_config E ⟨name, roots, c.clientAuth.map fun x => (x.1.map (readCert R), x.2)⟩).1.2
        ⟨fun x hx => by rw [hE]; exact hall x hx, fun chain der hd => by
          cases ha : c.clientAuth with
          | none => simp [ha] at hd
          | some p =>
            simp only [ha, Option.map_some, Option.some.injEq, Prod.mk.injEq] at hd
            rw [← hd.2]
            exact hk p.1 p.2 ha⟩
      exact ⟨_, cfg, ht, hcfg⟩
  · intro t cfg ht hcfg
    obtain ⟨t1, t2, t3⟩ := (htls t).1 ht
    obtain ⟨anchors, a1, a2, a3, -, -, -, a7, a8⟩ := (ClientAuth.C111_config E t).2.1 cfg hcfg
    refine ⟨anchors, by rw [← hE, ← t2]; exact a1, a2, by rw [a3]; exact t1, by rw [a7, t3, Option.isSome_map], ?_⟩
    intro cas offered chain scheme hr
    obtain ⟨k, ⟨der, hd, hk⟩, hs⟩ := (a8 cas offered chain scheme).1 hr
    rw [t3] at hd
    cases ha : c.clientAuth with
    | none => simp [ha] at hd
    | some p =>
      simp only [ha, Option.map_some, Option.some.injEq, Prod.mk.injEq] at hd
      obtain ⟨rfl, rfl⟩ := hd
      refine ⟨p.1, p.2, k, rfl, ?_, hk, hs⟩
      rw [List.forall₂_map_right_iff]
      exact List.forall₂_same.2 fun x _ => (readCert_given R x _).1 rfl

/-- **C114**: a verifier enforces the limits and uses the roots that JavaScript gave. -/
theorem C114_verifier (R : Reads) (c : JsVerifierConfig) (l : SdkVerifierConfig) (roots : List Bytes) :
    convertVerifierConfig R c = .ok (l, roots) ↔ l.maxSentData = c.maxSentData ∧ l.maxRecvData = c.maxRecvData ∧
      l.maxSentRecords = c.maxSentRecords ∧ l.maxRecvRecordsOnline = c.maxRecvRecordsOnline ∧ RootsFor R c.rootCerts roots := by
  have he : convertVerifierConfig R c = match buildRootStore R c.rootCerts with
      | .error e => .error e
      | .ok roots => .ok (⟨c.maxSentData, c.maxRecvData, c.maxSentRecords, c.maxRecvRecordsOnline⟩, roots) := by
    obtain ⟨s, r, sr, rr, rc⟩ := c
    unfold convertVerifierConfig
    cases sr <;> cases rr <;> cases rc <;> rfl
  rw [he, ← rootStore_ok]
  obtain ⟨l1, l2, l3, l4⟩ := l
  cases buildRootStore R c.rootCerts with
  | error e => simp
  | ok roots' =>
    simp only [Except.ok.injEq, Prod.mk.injEq, SdkVerifierConfig.mk.injEq]
    constructor
    · rintro ⟨⟨rfl, rfl, rfl, rfl⟩, rfl⟩; exact ⟨rfl, rfl, rfl, rfl, rfl⟩
    · rintro ⟨rfl, rfl, rfl, rfl, rfl⟩; exact ⟨⟨rfl, rfl, rfl, rfl⟩, rfl⟩

end Tlsn.Wasm
