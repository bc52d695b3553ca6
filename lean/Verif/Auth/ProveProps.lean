import Verif.Auth.ProveSession
import Verif.Auth.Props

/-!
# The prover (C61, C62, C63)

`sessionData`, `InStep`, `Agree`, `SameView` and the other words of the statements are defined in
`Verif.Auth.Spec`.
-/

namespace Tlsn

/-! ## C61: the prover discloses only what it reveals -/

theorem sync_of_view {F : Nat → Byte} {a b : ZkVm} (h : SameView a b) :
    Sync F b { a with fill := F, marks := a.marks.map fun m => (m.1, m.2.dual) } := by
  refine ⟨⟨rfl, h.mem.symm, h.ops.symm, by rw [h.marks]⟩, ⟨fun m hm hp => ?_, fun x hx => ?_⟩⟩
  · rw [← h.marks] at hm
    have := h.agree.pubs m hm hp
    exact ⟨by rw [← h.mem]; exact this.1, this.2.symm⟩
  · rw [← h.ops] at hx
    have := h.agree.decs x hx
    exact ⟨by rw [← h.mem]; exact this.1, this.2.symm⟩

theorem dual_injective {a b : Vis} (h : a.dual = b.dual) : a = b := by
  cases a <;> cases b <;> first | rfl | cases h

theorem view_of_sync {F : Nat → Byte} {a b v : ZkVm} (ha : Sync F a v) (hb : Sync F b v) : SameView a b := by
  have hm : a.marks = b.marks := by
    have := ha.step.marks.symm.trans hb.step.marks
    refine List.map_injective_iff.2 ?_ this
    rintro ⟨x, m⟩ ⟨y, n⟩ h
    simp only [Prod.mk.injEq] at h
    rw [h.1, dual_injective h.2]
  refine ⟨ha.step.mem.trans hb.step.mem.symm, ha.step.ops.trans hb.step.ops.symm, hm, ?_, ?_⟩
  · intro m hmem hp
    have h1 := ha.agree.pubs m hmem hp
    have h2 := hb.agree.pubs m (hm ▸ hmem) hp
    exact ⟨h1.1, h1.2.trans h2.2.symm⟩
  · intro x hx
    have h1 := ha.agree.decs x hx
    have h2 := hb.agree.decs x ((ha.step.ops.trans hb.step.ops.symm) ▸ hx)
    exact ⟨h1.1, h1.2.trans h2.2.symm⟩

/-- **C61** Two provers with keys of their own, whose plaintexts agree on the revealed positions and decrypt the
same records on the revealed and committed positions, and whose VMs showed the same so far: both succeed, with the
same references, and what they show of their VMs is the same again: the same operations and marks, the same public
inputs and the same decoded values.  (When everything is revealed the keys are decoded: there the keys must be
the same.) -/
theorem C61_same_view (aes : AesFn) (e : Bool) (vm₁ vm₂ : ZkVm) (key iv : VmVec) (p₁ p₂ : Bytes)
    (records : List Record) (reveal commit : RangeSet) (hview : SameView vm₁ vm₂)
    (hkey : key.addr + key.len ≤ vm₁.mem.length) (hiv : iv.addr + iv.len ≤ vm₁.mem.length)
    (hnonce : ∀ r ∈ records, r.nonce.length = 8)
    (hlen₁ : p₁.length = (records.flatMap (·.ciphertext)).length) (hlen₂ : p₂.length = p₁.length)
    (hreveal : ∀ x ∈ reveal, x < p₁.length) (hcommit : ∀ x ∈ commit, x < p₁.length)
    (hsame : ∀ x ∈ reveal, p₁[x]? = p₂[x]?)
    (hkeys : (∀ x < p₁.length, x ∈ reveal) → vm₁.read key = vm₂.read key ∧ vm₁.read iv = vm₂.read iv)
    (hd₁ : ∀ x, x ∈ reveal ∨ x ∈ commit →
      p₁[x]? = (records.flatMap (decryptRecord aes (vm₁.read key) (vm₁.read iv)))[x]?)
    (hd₂ : ∀ x, x ∈ reveal ∨ x ∈ commit →
      p₂[x]? = (records.flatMap (decryptRecord aes (vm₂.read key) (vm₂.read iv)))[x]?) :
    ∃ vm₁' vm₂' refs,
      provePlaintext aes e vm₁ key iv p₁ records reveal commit = .ok (vm₁', refs) ∧
      provePlaintext aes e vm₂ key iv p₂ records reveal commit = .ok (vm₂', refs) ∧
      SameView vm₁' vm₂' := by
  have hr := RangeSet.endD_le_iff.2 hreveal
  have hc := RangeSet.endD_le_iff.2 hcommit
  have pre1 : AuthPre vm₁ key iv (vm₁.read key) (vm₁.read iv) p₁ (records.flatMap (·.ciphertext)) records reveal :=
    ⟨⟨hkey, rfl⟩, ⟨hiv, rfl⟩, hnonce, rfl, hlen₁, hr⟩
  have pre2 : AuthPre vm₂ key iv (vm₂.read key) (vm₂.read iv) p₂ (records.flatMap (·.ciphertext)) records reveal :=
    ⟨⟨by rw [← hview.mem]; exact hkey, rfl⟩, ⟨by rw [← hview.mem]; exact hiv, rfl⟩, hnonce, rfl, by omega, by omega⟩
  obtain ⟨w, hw, hg, hm, hcell⟩ := provePlaintext_spec aes e commit pre1 hc
  let F : Nat → Byte := fun a => (w.mem[a]?).getD 0
  let vv : ZkVm := { vm₁ with fill := F, marks := vm₁.marks.map fun m => (m.1, m.2.dual) }
  have s2 : Sync F vm₂ vv := sync_of_view hview
  have s1 : Sync F vm₁ vv := sync_of_view ⟨rfl, rfl, rfl,
    fun m hm hp => ⟨(hview.agree.pubs m hm hp).1, rfl⟩, fun x hx => ⟨(hview.agree.decs x hx).1, rfl⟩⟩
  have prev : AuthPre vv key iv (vm₁.read key) (vm₁.read iv) p₁ (records.flatMap (·.ciphertext)) records reveal :=
    ⟨⟨hkey, rfl⟩, ⟨hiv, rfl⟩, hnonce, rfl, hlen₁, hr⟩
  have hF : ∀ x ∈ commit, x ∉ reveal → ∀ a,
      (layout vm₁.mem.length (allocRanges e reveal commit p₁.length).ranges).addrAt x = some a →
        (records.flatMap (decryptRecord aes (vm₁.read key) (vm₁.read iv)))[x]? = some (F a) := by
    intro x hx _ a ha
    have hlt := hcommit x hx
    rw [← hd₁ x (.inr hx)]
    show _ = some ((w.mem[a]?).getD 0)
    rw [hcell x a ha, List.getElem?_eq_getElem hlt]
    rfl
  obtain ⟨v1, u1, refs1, pr1, a1, b1, _, c1, _⟩ := plaintext_step aes e commit s1 pre1 prev hc (fun _ _ => rfl)
    (fun _ => ⟨rfl, rfl⟩) hd₁ (fun x hx => hd₁ x (.inl hx)) hF
  obtain ⟨v2, u2, refs2, pr2, a2, b2, _, c2, _⟩ := plaintext_step aes e commit s2 pre2 prev (by omega)
    (fun x hx => (hsame x hx).symm)
    (fun hall => by
      have := isRevealAll_mem hall
      have := hkeys fun x hx => (this x).2 (by omega)
      exact ⟨this.1.symm, this.2.symm⟩)
    hd₂ (fun x hx => hd₁ x (.inl hx)) (by rw [← hview.mem, hlen₂]; exact hF)
  rw [b1] at b2
  simp only [Outcome.ok.injEq, Prod.mk.injEq] at b2
  obtain ⟨rfl, rfl, _⟩ := b2
  exact ⟨v1, v2, refs1, a1, a2, view_of_sync c1 c2⟩

/-- **C61** The message of the prover depends on the transcript only through its lengths and the bytes at the
revealed positions. -/
theorem C61_message (config : ProveConfig) (name : ServerName) (data : HandshakeData) (t t' : Transcript)
    (hs : t.sent.length = t'.sent.length) (hr : t.received.length = t'.received.length)
    (h : ∀ r, config.reveal = some r →
      (∀ x ∈ r.1, t.sent[x]? = t'.sent[x]?) ∧ ∀ x ∈ r.2, t.received[x]? = t'.received[x]?) :
    proveRequestMsg config name data t = proveRequestMsg config name data t' := by
  unfold proveRequestMsg
  cases hc : config.reveal with
  | none => rfl
  | some r =>
    simp only
    rw [C01_to_partial_noninterference t t' r.1 r.2 hs hr (h r hc).1 (h r hc).2]

/-- The prover of the examples has another key, and another plaintext, for the same ciphertext. -/
def exZkVm' : ZkVm := ⟨(List.range 40).map fun n => if n = 4 then 77 else UInt8.ofNat n, fun _ => 0, [], []⟩

/-- Example for `C61_same_view`: two different keys and plaintexts, revealing the first two bytes and committing
to a private one. -/
example :
    let p₁ := (sessionData exAes exKeyBytes exTls).sent
    let p₂ := appData exAes (exZkVm'.read ⟨0, 16⟩) (exZkVm'.read ⟨16, 4⟩) exTls.sent
    SameView (exZkVm fun _ => 0) exZkVm' ∧ exZkVm'.read ⟨0, 16⟩ ≠ exKeyBytes.clientKey ∧
    (∀ x ∈ RangeSet.ofRange 0 1, p₁[x]? = p₂[x]?) ∧ ¬ (∀ x < p₁.length, x ∈ RangeSet.ofRange 0 1) := by
  refine ⟨⟨rfl, rfl, rfl, ⟨(fun m hm => nomatch hm), (fun x hx => nomatch hx)⟩⟩, by decide +kernel, ?_, ?_⟩
  · intro x hx
    have h0 : x = 0 := by
      have := RangeSet.mem_lt_endD hx
      have h1 : (RangeSet.ofRange 0 1).endD = 1 := by decide +kernel
      omega
    subst h0
    decide +kernel
  · intro h
    have h1 := RangeSet.mem_lt_endD (h 1 (by decide +kernel))
    have h2 : (RangeSet.ofRange 0 1).endD = 1 := by decide +kernel
    omega

/-! ## C62 and C63: the honest prover and the honest verifier -/

/-- **C63** For every session, configuration inside of the session's data, and choice of blinders, with VMs that hold
the session keys and are in step: the honest prover succeeds and sends its message; and when the verifier's blind
cells get the prover's inputs, the verifier accepts this message, with the partial transcript of the message, the
server name if it was to be proven, and the prover's commitments. -/
theorem C63_honest_accepted (aes : AesFn) (hc : HashCircuits) (e : Bool) (certs : CertVerifier)
    (blinders : Nat → Blinder) (vp : ZkVm) (keys : KeyRefs) (k : KeyBytes) (tls : SessionView) (config : ProveConfig)
    (name : ServerName) (hsd : HandshakeData) (hkp : HoldsKeys vp keys k) (hw : WellFormed tls)
    (hrev : ∀ r, config.reveal = some r → (∀ x ∈ r.1, x < (sessionData aes k tls).sent.length) ∧
      ∀ x ∈ r.2, x < (sessionData aes k tls).received.length)
    (hcom : ∀ q ∈ config.toRequest.hashes, (hc q.2.2).isSome ∧
      ∀ x ∈ q.2.1, x < ((sessionData aes k tls).data q.1).length)
    (hid : config.serverIdentity = true → ∃ key, tls.binding = some key ∧ hsd.verify certs tls.time key name = .ok ()) :
    ∃ vp' pout request handshake pt,
      proveSession aes hc e blinders vp keys (sessionData aes k tls) tls config = .ok (vp', pout) ∧
      proveRequestMsg config name hsd (sessionData aes k tls) = some (request, handshake, pt) ∧
      (pt.isSome ↔ config.reveal.isSome) ∧
      ∀ vv : ZkVm, HoldsKeys vv keys k → InStep vv.fill vp vv → Agree vp vv →
        (∀ a < vp'.mem.length, some (vv.fill a) = vp'.mem[a]?) →
        ∃ vv' out, verifySession aes hc e certs vv keys tls request handshake pt = .ok (vv', out) ∧
          out.transcript = pt ∧ out.serverName = (if config.serverIdentity then some name else none) ∧
          out.commitments = pout.commitments := by
  obtain ⟨vp', pout, pt, h1, _, _, h4, h5, h6⟩ := honest_session aes hc e certs blinders config name hsd hkp hw hrev
    hcom hid
  refine ⟨vp', pout, _, _, pt, h1, h4, h5, fun vv hkv hst hag hF => ?_⟩
  obtain ⟨vv', h7, _⟩ := h6 vv hkv ⟨hst, hag⟩ hF
  exact ⟨vv', _, h7, rfl, rfl, rfl⟩

/-- **C63** The prover's secrets open its commitments: there is one commitment and one secret for each of the
configuration's commitments, and for a provider of the same hash functions each commitment is the one an honest party
computes from the secret and the session's data (so C09-C14 apply to them). -/
theorem C63_secrets_open (aes : AesFn) (hc : HashCircuits) (e : Bool) (certs : CertVerifier)
    (blinders : Nat → Blinder) (vp : ZkVm) (keys : KeyRefs) (k : KeyBytes) (tls : SessionView) (config : ProveConfig)
    (hkp : HoldsKeys vp keys k) (hw : WellFormed tls)
    (hrev : ∀ r, config.reveal = some r → (∀ x ∈ r.1, x < (sessionData aes k tls).sent.length) ∧
      ∀ x ∈ r.2, x < (sessionData aes k tls).received.length)
    (hcom : ∀ q ∈ config.toRequest.hashes, (hc q.2.2).isSome ∧
      ∀ x ∈ q.2.1, x < ((sessionData aes k tls).data q.1).length)
    (provider : HashProvider)
    (hprov : ∀ a f, hc a = some f → ∃ h, provider a = some h ∧ h.id = a ∧ ∀ m, h.hash m = (f m).toList)
    (vp' : ZkVm) (pout : ProverOutput)
    (hok : proveSession aes hc e blinders vp keys (sessionData aes k tls) tls config = .ok (vp', pout)) :
    pout.commitments.length = config.toRequest.hashes.length ∧
    pout.secrets = config.toRequest.hashes.mapIdx (fun n q => ⟨q.1, q.2.1, q.2.2, blinders n⟩) ∧
    Pairwise2 (HonestCommitment provider (sessionData aes k tls)) pout.secrets pout.commitments := by
  obtain ⟨vp'', pout', pt, h1, _, h3, _⟩ := honest_session aes hc e certs blinders
    (config := { config with serverIdentity := false }) [] ⟨[], .rsaPkcs1Sha256, [], Vector.replicate 32 0, Vector.replicate 32 0, ⟨[]⟩⟩
    hkp hw hrev hcom (fun h => nomatch h)
  have h1' : proveSession aes hc e blinders vp keys (sessionData aes k tls) tls config = .ok (vp'', pout') := h1
  rw [hok] at h1'
  simp only [Outcome.ok.injEq, Prod.mk.injEq] at h1'
  obtain ⟨rfl, rfl⟩ := h1'
  have h3 : ProverGets hc (sessionData aes k tls) blinders config.toRequest.hashes pout := h3
  refine ⟨h3.len, ?_, by rw [h3.slen, h3.len], ?_⟩
  · apply List.ext_getElem?
    intro n
    rw [List.getElem?_mapIdx]
    cases hq : config.toRequest.hashes[n]? with
    | some q => rw [h3.sec n q hq]; rfl
    | none =>
      have h1 := List.getElem?_eq_none_iff.1 hq
      have h2 := h3.slen
      rw [List.getElem?_eq_none (by omega)]; rfl
  · intro n s c hs hcn
    have hn : n < config.toRequest.hashes.length := by
      rw [← h3.len]; exact (List.getElem?_eq_some_iff.1 hcn).1
    have hq := List.getElem?_eq_getElem hn
    rw [h3.sec n _ hq] at hs
    obtain rfl := Option.some.inj hs
    obtain ⟨f, msg, f1, f2, f3⟩ := h3.com n _ c hq hcn
    obtain ⟨h, p1, p2, p3⟩ := hprov _ f f1
    exact ⟨h, msg, p1, f2, by rw [f3, p2, p3]⟩

/-- **C62** In the honest run of the session the two VMs stay in step: the same allocations, circuits and decodings in
the same order, the same memory, matching marks; and the public inputs and decoded values of both are the same. -/
theorem C62_in_step (aes : AesFn) (hc : HashCircuits) (e : Bool) (certs : CertVerifier)
    (blinders : Nat → Blinder) (vp vv : ZkVm) (keys : KeyRefs) (k : KeyBytes) (tls : SessionView) (config : ProveConfig)
    (name : ServerName) (hsd : HandshakeData) (hkp : HoldsKeys vp keys k) (hkv : HoldsKeys vv keys k)
    (hw : WellFormed tls)
    (hrev : ∀ r, config.reveal = some r → (∀ x ∈ r.1, x < (sessionData aes k tls).sent.length) ∧
      ∀ x ∈ r.2, x < (sessionData aes k tls).received.length)
    (hcom : ∀ q ∈ config.toRequest.hashes, (hc q.2.2).isSome ∧
      ∀ x ∈ q.2.1, x < ((sessionData aes k tls).data q.1).length)
    (hid : config.serverIdentity = true → ∃ key, tls.binding = some key ∧ hsd.verify certs tls.time key name = .ok ())
    (hst : InStep vv.fill vp vv) (hag : Agree vp vv) (vp' : ZkVm) (pout : ProverOutput)
    (hprove : proveSession aes hc e blinders vp keys (sessionData aes k tls) tls config = .ok (vp', pout))
    (hF : ∀ a < vp'.mem.length, some (vv.fill a) = vp'.mem[a]?)
    (request : ProveRequest) (handshake : Option (ServerName × HandshakeData)) (pt : Option PartialTranscript)
    (hmsg : proveRequestMsg config name hsd (sessionData aes k tls) = some (request, handshake, pt))
    (vv' : ZkVm) (out : VerifierOutput)
    (hverify : verifySession aes hc e certs vv keys tls request handshake pt = .ok (vv', out)) :
    InStep vv.fill vp' vv' ∧ Agree vp' vv' := by
  obtain ⟨vp'', pout', pt', h1, _, _, h4, _, h6⟩ := honest_session aes hc e certs blinders config name hsd hkp hw hrev
    hcom hid
  rw [hprove] at h1
  simp only [Outcome.ok.injEq, Prod.mk.injEq] at h1
  obtain ⟨rfl, rfl⟩ := h1
  rw [hmsg] at h4
  simp only [Option.some.injEq, Prod.mk.injEq] at h4
  obtain ⟨rfl, rfl, rfl⟩ := h4
  obtain ⟨vv'', h7, h8⟩ := h6 vv hkv ⟨hst, hag⟩ hF
  rw [hverify] at h7
  simp only [Outcome.ok.injEq, Prod.mk.injEq] at h7
  obtain ⟨rfl, _⟩ := h7
  exact ⟨h8.step, h8.agree⟩

/-- The configuration of the examples: everything of the received data and two bytes of the sent data are
revealed; three sent bytes, two of them private, are committed. -/
def exProveConfig : ProveConfig where
  serverIdentity := true
  reveal := some (RangeSet.ofRange 0 2, RangeSet.ofRange 0 1)
  transcriptCommit := some ⟨[((.sent, RangeSet.ofRange 1 4), 1)]⟩

/-- Example for `C62_in_step` and `C63_honest_accepted`: an honest run with revealed and committed data. -/
example :
    (match proveSession exAes exCircuits true (fun _ => Vector.replicate 16 5) (exZkVm fun _ => 0) exKeyRefs exData
        exTls exProveConfig with
      | .ok (vp', pout) =>
        match verifySession exAes exCircuits true exCerts (exZkVm fun a => vp'.mem.getD a 0) exKeyRefs exTls
          exProveConfig.toRequest exIdentity (exData.toPartial (RangeSet.ofRange 0 2) (RangeSet.ofRange 0 1)) with
        | .ok (vv', out) => decide (out.commitments = pout.commitments ∧ pout.commitments.length = 1 ∧
            vv'.ops = vp'.ops ∧ out.serverName = some [1, 2] ∧ out.transcript.isSome)
        | _ => false
      | _ => false) = true := by decide +kernel

/-- The initial VMs of the example are in step and agree. -/
example (F : Nat → Byte) : InStep F (exZkVm fun _ => 0) (exZkVm F) ∧ Agree (exZkVm fun _ => 0) (exZkVm F) :=
  ⟨⟨rfl, rfl, rfl, rfl⟩, ⟨(fun _ hm => nomatch hm), (fun _ hx => nomatch hx)⟩⟩

/-- The configuration of the example is inside of the session's data, with a supported algorithm. -/
example : (∀ r, exProveConfig.reveal = some r → (∀ x ∈ r.1, x < exData.sent.length) ∧
      ∀ x ∈ r.2, x < exData.received.length) ∧
    ∀ q ∈ exProveConfig.toRequest.hashes, (exCircuits q.2.2).isSome ∧ ∀ x ∈ q.2.1, x < (exData.data q.1).length := by
  constructor
  · intro r hr
    obtain rfl := Option.some.inj hr
    exact ⟨RangeSet.endD_le_iff.1 (by decide +kernel), RangeSet.endD_le_iff.1 (by decide +kernel)⟩
  · intro q hq
    simp only [exProveConfig, ProveRequest.hashes, ProveConfig.toRequest, CommitConfig.toRequest, Option.map_some,
      List.map_cons, List.map_nil, List.mem_cons, List.not_mem_nil, or_false] at hq
    subst hq
    exact ⟨by decide +kernel, RangeSet.endD_le_iff.1 (by decide +kernel)⟩

end Tlsn
