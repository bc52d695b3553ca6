import Verif.Signing.Spec
import Verif.Attestation.Props

/-! # The signature algorithms of attestations: properties -/

namespace Tlsn.Signing

/-! ## Maps -/

variable {α : Type}

theorem get_insert (m : AlgMap α) (k k' : SignatureAlgId) (v : α) :
    (AlgMap.insert m k v).get k' = if k = k' then some v else m.get k' := by
  unfold AlgMap.insert AlgMap.get
  rw [List.find?_cons]
  by_cases h : k = k'
  · simp [h]
  · rw [if_neg h]
    simp only [h, decide_false]
    congr 1
    rw [List.find?_filter]
    congr 1
    funext e
    by_cases he : e.1 = k'
    · simp [he, Ne.symm h]
    · simp [he]

theorem keys_insert (m : AlgMap α) (k k' : SignatureAlgId) (v : α) :
    k' ∈ (AlgMap.insert m k v).map (·.1) ↔ k' = k ∨ k' ∈ m.map (·.1) := by
  unfold AlgMap.insert
  rw [List.map_cons, List.mem_cons]
  constructor
  · rintro (h | h)
    · exact .inl h
    · obtain ⟨e, he, rfl⟩ := List.mem_map.1 h
      exact .inr (List.mem_map.2 ⟨e, (List.mem_filter.1 he).1, rfl⟩)
  · rintro (h | h)
    · exact .inl h
    · obtain ⟨e, he, rfl⟩ := List.mem_map.1 h
      by_cases hk : e.1 = k
      · exact .inl hk
      · exact .inr (List.mem_map.2 ⟨e, List.mem_filter.2 ⟨he, by simp [hk]⟩, rfl⟩)

theorem nodup_insert (m : AlgMap α) (k : SignatureAlgId) (v : α) (h : (m.map (·.1)).Nodup) :
    ((AlgMap.insert m k v).map (·.1)).Nodup := by
  unfold AlgMap.insert
  rw [List.map_cons, List.nodup_cons]
  refine ⟨?_, h.sublist (List.filter_sublist.map _)⟩
  intro hm
  obtain ⟨e, he, rfl⟩ := List.mem_map.1 hm
  simpa using (List.mem_filter.1 he).2

theorem get_isSome (m : AlgMap α) (k : SignatureAlgId) : (m.get k).isSome ↔ k ∈ m.map (·.1) := by
  unfold AlgMap.get
  rw [Option.isSome_map, List.find?_isSome, List.mem_map]
  simp

/-! ## Signers -/

theorem configures_get (C : Crypto) (p : SignerProvider) (op : SignerCall) (alg : SignatureAlgId) :
    (∀ s, Configures C alg op s → (p.call C op).1.get alg = some s ∧ (p.call C op).2 = true) ∧
    (Skips C alg op → (p.call C op).1.get alg = p.get alg) := by
  constructor
  · rintro s (⟨_, rfl⟩ | ⟨key, k, rfl, hk⟩ | ⟨key, k, rfl, hk⟩ | ⟨key, k, rfl, hk⟩)
    · simp [SignerProvider.call, SignerProvider.setSigner, SignerProvider.get, get_insert]
    · simp [SignerProvider.call, SignerProvider.setSecp256k1, newK1, hk, SignerProvider.setSigner, SignerProvider.get,
        get_insert, k1Signer, secp256k1]
    · simp [SignerProvider.call, SignerProvider.setSecp256r1, newR1, hk, SignerProvider.setSigner, SignerProvider.get,
        get_insert, r1Signer, secp256r1]
    · simp [SignerProvider.call, SignerProvider.setSecp256k1eth, newEth, hk, SignerProvider.setSigner, SignerProvider.get,
        get_insert, ethSigner, secp256k1eth]
  · intro h
    cases op with
    | setSigner s =>
      have : s.alg ≠ alg := fun e => h s (.custom s e)
      simp [SignerProvider.call, SignerProvider.setSigner, SignerProvider.get, get_insert, this]
    | setSecp256k1 key =>
      simp only [SignerProvider.call, SignerProvider.setSecp256k1, newK1]
      cases hk : C.k256.skFromSlice key with
      | none => rfl
      | some k =>
        have : ¬ secp256k1 = alg := fun e => h _ (.k1 key k e.symm hk)
        simp [SignerProvider.setSigner, SignerProvider.get, get_insert, k1Signer, this]
    | setSecp256r1 key =>
      simp only [SignerProvider.call, SignerProvider.setSecp256r1, newR1]
      cases hk : C.p256.skFromSlice key with
      | none => rfl
      | some k =>
        have : ¬ secp256r1 = alg := fun e => h _ (.r1 key k e.symm hk)
        simp [SignerProvider.setSigner, SignerProvider.get, get_insert, r1Signer, this]
    | setSecp256k1eth key =>
      simp only [SignerProvider.call, SignerProvider.setSecp256k1eth, newEth]
      cases hk : C.k256.skFromSlice key with
      | none => rfl
      | some k =>
        have : ¬ secp256k1eth = alg := fun e => h _ (.eth key k e.symm hk)
        simp [SignerProvider.setSigner, SignerProvider.get, get_insert, ethSigner, this]

theorem calls_append (C : Crypto) (p : SignerProvider) (a b : List SignerCall) :
    p.calls C (a ++ b) = (p.calls C a).calls C b := List.foldl_append ..

theorem calls_skip (C : Crypto) (alg : SignatureAlgId) (ops : List SignerCall) :
    ∀ (p : SignerProvider), (∀ op ∈ ops, Skips C alg op) → (p.calls C ops).get alg = p.get alg := by
  induction ops with
  | nil => intro p _; rfl
  | cons op ops ih =>
    intro p h
    have : p.calls C (op :: ops) = ((p.call C op).1).calls C ops := rfl
    rw [this, ih _ (fun o ho => h o (List.mem_cons_of_mem _ ho)), (configures_get C p op alg).2 (h op List.mem_cons_self)]

/-- **C118** A provider of signers knows exactly what it was told: for any sequence of calls, the signer of an algorithm is the
one of the last call that configured one; calls that fail or that concern other algorithms change nothing, and an algorithm
nobody configured has no signer. -/
theorem C118_signer (C : Crypto) (ops : List SignerCall) (alg : SignatureAlgId) :
    (∀ s, (SignerProvider.default.calls C ops).get alg = some s ↔
      ∃ before op after, ops = before ++ op :: after ∧ Configures C alg op s ∧ ∀ o ∈ after, Skips C alg o) ∧
    ((SignerProvider.default.calls C ops).get alg = none ↔ ∀ op ∈ ops, Skips C alg op) := by
  have key : (∀ op ∈ ops, Skips C alg op) ∨ ∃ before op after s, ops = before ++ op :: after ∧ Configures C alg op s ∧
      ∀ o ∈ after, Skips C alg o := by
    induction ops with
    | nil => exact .inl (by simp)
    | cons op ops ih =>
      rcases ih with h | ⟨b, o, a, s, rfl, h1, h2⟩
      · by_cases hs : Skips C alg op
        · refine .inl fun o ho => ?_
          rcases List.mem_cons.1 ho with rfl | ho
          · exact hs
          · exact h o ho
        · obtain ⟨s, hs⟩ := Classical.not_forall.1 hs
          exact .inr ⟨[], op, ops, s, rfl, Classical.not_not.1 hs, h⟩
      · exact .inr ⟨op :: b, o, a, s, rfl, h1, h2⟩
  have last : ∀ before op after s, ops = before ++ op :: after → Configures C alg op s → (∀ o ∈ after, Skips C alg o) →
      (SignerProvider.default.calls C ops).get alg = some s := by
    rintro before op after s rfl h1 h2
    rw [calls_append]
    have : ∀ p : SignerProvider, p.calls C (op :: after) = ((p.call C op).1).calls C after := fun p => rfl
    rw [this, calls_skip C alg after _ h2]
    exact ((configures_get C _ op alg).1 s h1).1
  have none_of : (∀ op ∈ ops, Skips C alg op) → (SignerProvider.default.calls C ops).get alg = none := by
    intro h
    rw [calls_skip C alg ops _ h]
    rfl
  refine ⟨fun s => ⟨fun h => ?_, ?_⟩, fun h => ?_, none_of⟩
  · rcases key with hk | ⟨b, o, a, s', e, h1, h2⟩
    · rw [none_of hk] at h; cases h
    · rw [last b o a s' e h1 h2] at h
      cases h
      exact ⟨b, o, a, e, h1, h2⟩
  · rintro ⟨b, o, a, e, h1, h2⟩
    exact last b o a s e h1 h2
  · rcases key with hk | ⟨b, o, a, s', e, h1, h2⟩
    · exact hk
    · rw [last b o a s' e h1 h2] at h; cases h

theorem call_keys (C : Crypto) (p : SignerProvider) (op : SignerCall) (h : p.supportedAlgs.Nodup) :
    (p.call C op).1.supportedAlgs.Nodup := by
  cases op with
  | setSigner s => exact nodup_insert _ _ _ h
  | setSecp256k1 key =>
    simp only [SignerProvider.call, SignerProvider.setSecp256k1]
    split
    · exact h
    · exact nodup_insert _ _ _ h
  | setSecp256r1 key =>
    simp only [SignerProvider.call, SignerProvider.setSecp256r1]
    split
    · exact h
    · exact nodup_insert _ _ _ h
  | setSecp256k1eth key =>
    simp only [SignerProvider.call, SignerProvider.setSecp256k1eth]
    split
    · exact h
    · exact nodup_insert _ _ _ h

/-- **C118** The listed algorithms are those with a signer, each listed once. -/
theorem C118_supported (C : Crypto) (ops : List SignerCall) :
    (SignerProvider.default.calls C ops).supportedAlgs.Nodup ∧
    ∀ alg, alg ∈ (SignerProvider.default.calls C ops).supportedAlgs ↔
      ∃ s, (SignerProvider.default.calls C ops).get alg = some s := by
  refine ⟨?_, fun alg => ?_⟩
  · have : ∀ p : SignerProvider, p.supportedAlgs.Nodup → (p.calls C ops).supportedAlgs.Nodup := by
      induction ops with
      | nil => exact fun _ h => h
      | cons op ops ih => exact fun p h => ih _ (call_keys C p op h)
    exact this _ List.nodup_nil
  · rw [← Option.isSome_iff_exists]
    exact (get_isSome _ _).symm

/-- **C118** A call with key bytes succeeds exactly if the curve reads them as a signing key. -/
theorem C118_call (C : Crypto) (p : SignerProvider) (key : Bytes) :
    ((p.call C (.setSecp256k1 key)).2 = true ↔ ∃ k, C.k256.skFromSlice key = some k) ∧
    ((p.call C (.setSecp256r1 key)).2 = true ↔ ∃ k, C.p256.skFromSlice key = some k) ∧
    ((p.call C (.setSecp256k1eth key)).2 = true ↔ ∃ k, C.k256.skFromSlice key = some k) := by
  simp only [SignerProvider.call, SignerProvider.setSecp256k1, SignerProvider.setSecp256r1, SignerProvider.setSecp256k1eth,
    newK1, newR1, newEth]
  refine ⟨?_, ?_, ?_⟩
  · cases C.k256.skFromSlice key <;> simp
  · cases C.p256.skFromSlice key <;> simp
  · cases C.k256.skFromSlice key <;> simp

/-- **C118** The identifiers a user can create are those from 128 on, and none of them is a built-in one; the built-in ones
differ. -/
theorem C118_ids (id : Byte) :
    ((∃ a, newSignatureAlgId id = some a) ↔ 128 ≤ id.toNat) ∧ ((∃ a, newKeyAlgId id = some a) ↔ 128 ≤ id.toNat) ∧
    (∀ a, newSignatureAlgId id = some a → a = id ∧ a ≠ secp256k1 ∧ a ≠ secp256r1 ∧ a ≠ secp256k1eth) ∧
    (∀ a, newKeyAlgId id = some a → a = id ∧ a ≠ keyK256 ∧ a ≠ keyP256) ∧
    [secp256k1, secp256r1, secp256k1eth].Nodup ∧ [keyK256, keyP256].Nodup := by
  have hle : (128 : Byte) ≤ id ↔ 128 ≤ id.toNat := by
    rw [UInt8.le_iff_toNat_le]; rfl
  have ne : ∀ c : Byte, c.toNat < 128 → (128 : Byte) ≤ id → id ≠ c := by
    rintro c hc h rfl
    rw [hle] at h
    omega
  refine ⟨?_, ?_, ?_, ?_, by decide, by decide⟩
  · unfold newSignatureAlgId
    split <;> rename_i h <;> simp [← hle, h]
  · unfold newKeyAlgId
    split <;> rename_i h <;> simp [← hle, h]
  · intro a h
    unfold newSignatureAlgId at h
    split at h
    · rename_i hi
      cases h
      exact ⟨rfl, ne _ (by decide) hi, ne _ (by decide) hi, ne _ (by decide) hi⟩
    · cases h
  · intro a h
    unfold newKeyAlgId at h
    split at h
    · rename_i hi
      cases h
      exact ⟨rfl, ne _ (by decide) hi, ne _ (by decide) hi⟩
    · cases h

/-! ## Verifiers -/

/-- The verifier configured last for the algorithm. -/
def lastFor (alg : SignatureAlgId) (vs : List Verifier) : Option Verifier := (vs.filter fun v => v.alg = alg).getLast?

theorem setVerifier_get (p : VerifierProvider) (v : Verifier) (alg : SignatureAlgId) :
    (p.setVerifier v).get alg = if v.alg = alg then some v else p.get alg := get_insert _ _ _ _

theorem verifiers_get (vs : List Verifier) (alg : SignatureAlgId) : ∀ p : VerifierProvider,
    (vs.foldl VerifierProvider.setVerifier p).get alg = (lastFor alg vs).or (p.get alg) := by
  induction vs with
  | nil => intro p; rfl
  | cons v vs ih =>
    intro p
    rw [List.foldl_cons, ih, setVerifier_get]
    unfold lastFor
    by_cases h : v.alg = alg
    · rw [List.filter_cons_of_pos (by simpa using h), if_pos h, List.getLast?_cons]
      cases (List.filter (fun v => decide (v.alg = alg)) vs).getLast? <;> rfl
    · rw [List.filter_cons_of_neg (by simpa using h), if_neg h]

theorem default_get (C : Crypto) (alg : SignatureAlgId) : (VerifierProvider.default C).get alg =
    if alg = 1 then some (k1Verifier C) else if alg = 2 then some (r1Verifier C)
    else if alg = 3 then some (ethVerifier C) else none := by
  unfold VerifierProvider.default VerifierProvider.get
  rw [get_insert, get_insert, get_insert]
  by_cases h1 : alg = 1
  · subst h1; rfl
  by_cases h2 : alg = 2
  · subst h2; rfl
  by_cases h3 : alg = 3
  · subst h3; rfl
  rw [if_neg (fun e => h3 e.symm), if_neg (fun e => h2 e.symm), if_neg (fun e => h1 e.symm), if_neg h1, if_neg h2, if_neg h3]
  rfl

theorem k1_valid (C : Crypto) (key : VerifyingKey) (m sig : Bytes) :
    (k1Verifier C).verify key m sig = true ↔ Valid C 1 key m sig := by
  obtain ⟨alg, data⟩ := key
  simp only [k1Verifier]
  constructor
  · intro h
    by_cases ha : alg = keyK256
    · subst ha
      rw [if_neg (fun h => h rfl)] at h
      split at h
      · cases h
      · rename_i vk hvk
        split at h
        · cases h
        · rename_i s hs
          exact .k1 data m sig vk s hvk hs h
    · rw [if_pos ha] at h; cases h
  · intro h
    cases h with
    | k1 _ _ _ vk s h1 h2 h3 =>
    rw [if_neg (show ¬ ((1 : Byte) ≠ keyK256) from fun h => h rfl)]
    simp only [h1, h2, h3]

theorem r1_valid (C : Crypto) (key : VerifyingKey) (m sig : Bytes) :
    (r1Verifier C).verify key m sig = true ↔ Valid C 2 key m sig := by
  obtain ⟨alg, data⟩ := key
  simp only [r1Verifier]
  constructor
  · intro h
    by_cases ha : alg = keyP256
    · subst ha
      rw [if_neg (fun h => h rfl)] at h
      split at h
      · cases h
      · rename_i vk hvk
        split at h
        · cases h
        · rename_i s hs
          exact .r1 data m sig vk s hvk hs h
    · rw [if_pos ha] at h; cases h
  · intro h
    cases h with
    | r1 _ _ _ vk s h1 h2 h3 =>
      rw [if_neg (show ¬ ((2 : Byte) ≠ keyP256) from fun h => h rfl)]
      simp only [h1, h2, h3]

theorem eth_valid (C : Crypto) (key : VerifyingKey) (m sig : Bytes) :
    (ethVerifier C).verify key m sig = true ↔ Valid C 3 key m sig := by
  obtain ⟨alg, data⟩ := key
  simp only [ethVerifier]
  constructor
  · intro h
    by_cases ha : alg = keyK256
    · subst ha
      rw [if_neg (fun h => h rfl)] at h
      by_cases hl : sig.length = 65
      · rw [if_neg (by simpa using hl)] at h
        split at h
        · cases h
        · rename_i vk hvk
          split at h
          · cases h
          · rename_i s hs
            have hd : (sig.drop 64).length = 1 := by rw [List.length_drop]; omega
            obtain ⟨v, hv⟩ := List.length_eq_one_iff.1 hd
            have e : sig = sig.take 64 ++ [v] := by rw [← hv]; exact (List.take_append_drop 64 sig).symm
            rw [e]
            exact .eth data m (sig.take 64) v vk s hvk (by rw [List.length_take]; omega) hs h
      · rw [if_pos hl] at h; cases h
    · rw [if_pos ha] at h; cases h
  · intro h
    cases h with
    | eth _ _ rs v vk s h1 hl h2 h3 =>
      have ht : (rs ++ [v]).take 64 = rs := by rw [List.take_append_of_le_length (by omega), List.take_of_length_le (by omega)]
      rw [if_neg (show ¬ ((1 : Byte) ≠ keyK256) from fun h => h rfl), if_neg (by simp [hl])]
      simp only [ht, h1, h2, h3]

/-- **C119** The default verifiers accept exactly the documented signatures: algorithm, key algorithm, encodings, hash and curve
as specified, and no other algorithm is known. Verifiers a user adds take the place of earlier ones of the same algorithm and
leave the others alone. -/
theorem C119_accepts (C : Crypto) (vs : List Verifier) (alg : SignatureAlgId) (key : VerifyingKey) (m sig : Bytes) :
    (∃ v, (vs.foldl VerifierProvider.setVerifier (VerifierProvider.default C)).get alg = some v ∧ v.verify key m sig = true) ↔
      match lastFor alg vs with
      | some v => v.verify key m sig = true
      | none => Valid C alg key m sig := by
  rw [verifiers_get]
  cases hl : lastFor alg vs with
  | some v => simp
  | none =>
    simp only [Option.none_or]
    rw [default_get]
    by_cases h1 : alg = 1
    · subst h1
      simp [k1_valid]
    by_cases h2 : alg = 2
    · subst h2
      simp [r1_valid]
    by_cases h3 : alg = 3
    · subst h3
      simp [eth_valid]
    rw [if_neg h1, if_neg h2, if_neg h3]
    refine ⟨?_, fun h => ?_⟩
    · rintro ⟨v, h, -⟩
      cases h
    exfalso
    cases h
    · exact h1 rfl
    · exact h2 rfl
    · exact h3 rfl

/-- **C119** Signatures are not interchangeable: the algorithm of a valid signature is determined by the key's algorithm and
the signature's length, and the byte `v` of an Ethereum signature is not checked. -/
theorem C119_separate (C : Crypto) (hC : C.Lawful) (alg : SignatureAlgId) (key : VerifyingKey) (m sig : Bytes)
    (h : Valid C alg key m sig) :
    (alg = 1 ↔ key.alg = 1 ∧ sig.length = 64) ∧ (alg = 2 ↔ key.alg = 2) ∧
    (alg = 3 ↔ key.alg = 1 ∧ sig.length = 65) ∧
    (alg = 3 → ∀ v, Valid C 3 key m (sig.take 64 ++ [v])) := by
  cases h with
  | k1 data m sig vk s h1 h2 h3 =>
    have := hC.k256.size _ _ h2
    simp [this]
  | r1 data m sig vk s h1 h2 h3 =>
    simp
  | eth data m rs v vk s h1 hl h2 h3 =>
    have ht : (rs ++ [v]).take 64 = rs := by rw [List.take_append_of_le_length (by omega), List.take_of_length_le (by omega)]
    simp only [List.length_append, hl, List.length_singleton, ht]
    refine ⟨by simp, by simp, by simp, fun _ v' => .eth data m rs v' vk s h1 hl h2 h3⟩

theorem sgToVec_length {E : Ecdsa} (h : E.Lawful) (s : E.Sg) : (E.sgToVec s).length = 64 := h.size _ _ (h.sig s)

theorem eth_sign (C : Crypto) (k : C.k256.SK) (m : Bytes) (sig : Signature) :
    (ethSigner C k).sign m = some sig ↔ ∃ s r, C.k256.signPrehashRecoverable k (C.keccak256 m) = some (s, r) ∧ r ≤ 1 ∧
      sig = ⟨3, C.k256.sgToVec s ++ [r + 27]⟩ := by
  simp only [ethSigner]
  cases h : C.k256.signPrehashRecoverable k (C.keccak256 m) with
  | none => simp
  | some p =>
    obtain ⟨s, r⟩ := p
    simp only [Option.some.injEq, Prod.mk.injEq]
    by_cases hr : r > 1
    · rw [if_pos hr]
      simp only [reduceCtorEq, false_iff]
      rintro ⟨s', r', ⟨rfl, rfl⟩, h1, -⟩
      exact absurd hr (UInt8.not_lt.2 h1)
    · rw [if_neg hr]
      constructor
      · intro e
        cases e
        exact ⟨s, r, ⟨rfl, rfl⟩, UInt8.not_lt.1 hr, rfl⟩
      · rintro ⟨s', r', ⟨rfl, rfl⟩, -, rfl⟩
        rfl

/-- **C118** What a built-in signer signs is valid under its own algorithm for the verifying key it states. An Ethereum
signature ends in 27 or 28, which is 27 more than the recovery identifier. -/
theorem C118_signs (C : Crypto) (hC : C.Lawful) (ops : List SignerCall) (hops : BuiltIn ops) (alg : SignatureAlgId)
    (s : Signer) (hs : (SignerProvider.default.calls C ops).get alg = some s) (m : Bytes) :
    s.alg = alg ∧ (alg = 1 ∨ alg = 2 ∨ alg = 3) ∧
    (∀ sig, s.sign m = some sig → sig.alg = alg ∧ Valid C alg s.verifyingKey m sig.data ∧
      (alg = 3 → ∃ rs v, sig.data = rs ++ [v] ∧ (v = 27 ∨ v = 28) ∧ ∃ k sg, C.k256.sgToVec sg = rs ∧
        s.verifyingKey = ⟨1, C.k256.vkToSec1 (C.k256.vkOf k)⟩ ∧
        C.k256.signPrehashRecoverable k (C.keccak256 m) = some (sg, v - 27))) ∧
    (alg ≠ 3 → ∃ sig, s.sign m = some sig) := by
  obtain ⟨b, op, a, rfl, hc, -⟩ := ((C118_signer C ops alg).1 s).1 hs
  cases hc with
  | custom _ _ => exact absurd (by simp) (hops s)
  | k1 key k h1 h2 =>
    subst h1
    refine ⟨rfl, .inl rfl, ?_, fun _ => ⟨_, rfl⟩⟩
    rintro sig e
    cases e
    exact ⟨rfl, .k1 _ _ _ _ _ (hC.k256.key _) (hC.k256.sig _) (hC.k256.signs _ _), by simp⟩
  | r1 key k h1 h2 =>
    subst h1
    refine ⟨rfl, .inr (.inl rfl), ?_, fun _ => ⟨_, rfl⟩⟩
    rintro sig e
    cases e
    exact ⟨rfl, .r1 _ _ _ _ _ (hC.p256.key _) (hC.p256.sig _) (hC.p256.signs _ _), by simp⟩
  | eth key k h1 h2 =>
    subst h1
    refine ⟨rfl, .inr (.inr rfl), ?_, fun h => absurd rfl h⟩
    intro sig e
    obtain ⟨sg, r, h3, h4, rfl⟩ := (eth_sign C k m sig).1 e
    have hr : r = 0 ∨ r = 1 := by
      rw [UInt8.le_iff_toNat_le] at h4
      have h5 : (1 : UInt8).toNat = 1 := rfl
      have h6 : (0 : UInt8).toNat = 0 := rfl
      rw [h5] at h4
      rcases Nat.lt_or_ge r.toNat 1 with h | h
      · left; apply UInt8.toNat_inj.1; omega
      · right; apply UInt8.toNat_inj.1; omega
    refine ⟨rfl, .eth _ _ _ _ _ _ (hC.k256.key _) (sgToVec_length hC.k256 _) (hC.k256.sig _)
      (hC.k256.signsRecoverable _ _ _ _ h3), fun _ => ⟨_, _, rfl, ?_, k, sg, rfl, rfl, ?_⟩⟩
    · rcases hr with rfl | rfl
      · left; rfl
      · right; rfl
    · rw [h3]
      rcases hr with rfl | rfl <;> rfl

/-- **C118** The default verifiers accept what the built-in signers sign. -/
theorem C118_accepted (C : Crypto) (hC : C.Lawful) (ops : List SignerCall) (hops : BuiltIn ops) (hash hash' : HashProvider)
    (cert cert' : CertVerifier) (dom dom' : Domains) (sp : SignerProvider) (vp : VerifierProvider) :
    SignaturesAccepted (cryptoProvider hash cert dom (SignerProvider.default.calls C ops) vp)
      (cryptoProvider hash' cert' dom' sp (VerifierProvider.default C)) := by
  intro alg s m sig hs hsig
  obtain ⟨-, -, h, -⟩ := C118_signs C hC ops hops alg s hs m
  obtain ⟨h1, h2, -⟩ := h sig hsig
  obtain ⟨v, h3, h4⟩ := (C119_accepts C [] sig.alg s.verifyingKey m sig.data).2 (by rw [h1]; exact h2)
  refine ⟨v.verify, ?_, h4⟩
  simp only [cryptoProvider]
  rw [show (VerifierProvider.default C).get sig.alg = some v from h3]
  rfl

/-- **C118** An attestation that a notary built with a built-in signer verifies under the default verifiers. -/
theorem C118_attestation (C : Crypto) (hC : C.Lawful) (calls : List SignerCall) (hcalls : BuiltIn calls) (checked : Bool)
    (hash : HashProvider) (hh : ProviderOk hash) (cert cert' : CertVerifier) (dom : Domains) (vp : VerifierProvider)
    (config : AttestationConfig) (r : Request) (ops : List AttBuilderOp) (uid : Vector Byte 16) (a : Attestation)
    (h : NotaryBuilds (cryptoProvider hash cert dom (SignerProvider.default.calls C calls) vp) config r ops uid a)
    (hcount : a.body.fieldCount ≤ 2 ^ 32) :
    ∃ p, AttestationProof.new (cryptoProvider hash cert' dom .default (.default C)) a = .ok p ∧
      p.verify checked (cryptoProvider hash cert' dom .default (.default C)) = .ok a :=
  C21_complete checked _ _ config r ops uid a h hh rfl rfl (C118_accepted C hC calls hcalls _ _ _ _ _ _ _ _) hcount

/-- **C119** If nobody can forge a signature of a digest, nobody can make the default verifiers accept another message than the
signed headers under the key, in any of the algorithms, or two messages collide. -/
theorem C119_only_signed (C : Crypto) (hash : HashProvider) (cert : CertVerifier) (dom : Domains) (sp : SignerProvider)
    (k : VerifyingKey) (signed : List Header) (hu : Unforgeable C k (Digests C k.alg signed)) :
    OnlySigned (cryptoProvider hash cert dom sp (.default C)) k signed ∨ Collision C := by
  by_cases hcol : Collision C
  · exact .inr hcol
  refine .inl fun alg sv m sig hsv hok => ?_
  have hv : Valid C alg k m sig := by
    refine (C119_accepts C [] alg k m sig).1 ?_
    simp only [cryptoProvider] at hsv
    obtain ⟨v, h1, rfl⟩ := Option.map_eq_some_iff.1 hsv
    exact ⟨v, h1, hok⟩
  have fin : ∀ d, Digests C k.alg signed d → (d = C.sha256 m ∨ d = C.keccak256 m) → ∃ hd ∈ signed, m = hd.bcs := by
    rintro d ⟨hd, hm, h1⟩ h2
    refine ⟨hd, hm, ?_⟩
    apply Classical.byContradiction
    intro hne
    apply hcol
    rcases h1 with h1 | ⟨-, h1⟩ <;> rcases h2 with h2 | h2
    · exact ⟨m, hd.bcs, hne, .inl (h2.symm.trans h1)⟩
    · exact ⟨hd.bcs, m, Ne.symm hne, .inr (.inr (h1.symm.trans h2))⟩
    · exact ⟨m, hd.bcs, hne, .inr (.inr (h2.symm.trans h1))⟩
    · exact ⟨m, hd.bcs, hne, .inr (.inl (h2.symm.trans h1))⟩
  cases hv with
  | k1 data m sig vk s h1 h2 h3 => exact fin _ (hu.1 rfl vk _ s h1 h3) (.inl rfl)
  | r1 data m sig vk s h1 h2 h3 => exact fin _ (hu.2 rfl vk _ s h1 h3) (.inl rfl)
  | eth data m rs v vk s h1 hl h2 h3 => exact fin _ (hu.1 rfl vk _ s h1 h3) (.inr rfl)

/-- **C119** So every verified attestation that names the key has a header its holder signed, or two messages collide. -/
theorem C119_header_signed (C : Crypto) (hash : HashProvider) (cert : CertVerifier) (dom : Domains) (sp : SignerProvider)
    (k : VerifyingKey) (signed : List Header) (hu : Unforgeable C k (Digests C k.alg signed)) (checked : Bool)
    (p : AttestationProof) (hver : p.header.version < 2 ^ 32 ∧ ∀ hd ∈ signed, hd.version < 2 ^ 32) (b : Attestation)
    (hv : p.verify checked (cryptoProvider hash cert dom sp (.default C)) = .ok b)
    (hkey : b.body.verifyingKey.data = k) : b.header ∈ signed ∨ Collision C := by
  rcases C119_only_signed C hash cert dom sp k signed hu with h | h
  · exact .inl (C22_header_signed checked p _ k signed h hver b hv hkey)
  · exact .inr h

end Tlsn.Signing
