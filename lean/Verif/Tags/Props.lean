import Verif.Tags.Model
import Verif.Auth.Props
import Verif.Ghash.Props

/-! # Tag verification (C35) -/

namespace Tlsn

/-- The two version bytes of TLS. -/
def versionBytes : TlsVersion → Bytes
  | .v12 => [3, 3]
  | .v13 => [3, 4]

/-- The AES-GCM tag of a TLS 1.2 record: the hash key is given, the first counter block is the salt, the record's
nonce and the counter 1, the additional data are the sequence number, type, version and length of the record. -/
def recordTag (aes : AesFn) (key iv mac : Bytes) (version : TlsVersion) (r : Record) : Bytes :=
  gcmTag mac (aes key (iv ++ (r.nonce ++ beBytes 4 1))).toList
    (beBytes 8 r.seq ++ ([r.typ.getU8] ++ (versionBytes version ++ beBytes 2 r.ciphertext.length))) r.ciphertext

theorem makeTls12Aad_version (seq : Nat) (t : ContentType) (version : TlsVersion) (len : Nat) :
    makeTls12Aad seq t version.protocol len =
      beBytes 8 seq ++ ([t.getU8] ++ (versionBytes version ++ beBytes 2 len)) := by
  cases version <;> rfl

theorem allocJ0_ok (aes : AesFn) {vm : ZkVm} {key iv : VmVec} {k i : Bytes} (hk : Holds vm key k) (hi : Holds vm iv i)
    {nonce : Bytes} (hn : nonce.length = 8) :
    ∃ vm' b, allocJ0 aes vm key iv nonce = .ok (vm', b) ∧ Grew vm vm' ∧
      Holds vm' b (aes k (i ++ (nonce ++ beBytes 4 1))).toList := by
  unfold allocJ0
  rw [if_neg (by simp [hn])]
  have hw : ((vm.alloc 8).1.mark (vm.alloc 8).2 .pub).assign (vm.alloc 8).2 nonce =
      some { vm with mem := vm.mem ++ nonce, ops := vm.ops ++ [.alloc 8],
                     marks := vm.marks ++ [(⟨vm.mem.length, 8⟩, .pub)] } := by
    simp [ZkVm.assign, ZkVm.alloc, ZkVm.mark, hn, writeAt]
  rw [hw]
  simp only
  generalize hv1 : (ZkVm.mk (vm.mem ++ nonce) vm.fill (vm.ops ++ [.alloc 8])
    (vm.marks ++ [(⟨vm.mem.length, 8⟩, .pub)])) = vm1
  have hm1 : vm1.mem = vm.mem ++ nonce := by rw [← hv1]
  have hw2 : ((vm1.alloc 4).1.mark (vm1.alloc 4).2 .pub).assign (vm1.alloc 4).2 (beBytes 4 1) =
      some { vm1 with mem := vm1.mem ++ beBytes 4 1, ops := vm1.ops ++ [.alloc 4],
                      marks := vm1.marks ++ [(⟨vm1.mem.length, 4⟩, .pub)] } := by
    simp [ZkVm.assign, ZkVm.alloc, ZkVm.mark, writeAt]
  rw [hw2]
  simp only
  generalize hv2 : (ZkVm.mk (vm1.mem ++ beBytes 4 1) vm1.fill (vm1.ops ++ [.alloc 4])
    (vm1.marks ++ [(⟨vm1.mem.length, 4⟩, .pub)])) = vm2
  have hm2 : vm2.mem = vm.mem ++ (nonce ++ (beBytes 4 1 ++ [])) := by rw [← hv2]; simp [hm1]
  have hg : Grew vm vm2 := ⟨_, hm2⟩
  have hr1 := (hk.mono hg).2
  have hr2 := (hi.mono hg).2
  have hr3 : vm2.read (vm.alloc 8).2 = nonce := (read_fresh hm2 rfl hn.symm).2
  have hr4 : vm2.read (vm1.alloc 4).2 = beBytes 4 1 :=
    (read_fresh (m := vm.mem ++ nonce) (a := beBytes 4 1) (b := []) (by rw [hm2]; simp)
      (by simp [ZkVm.alloc, hm1]) (by simp [ZkVm.alloc])).2
  refine ⟨_, _, rfl, ?_, ?_⟩
  · exact hg.trans ⟨_, rfl⟩
  · rw [hr1, hr2, hr3, hr4]
    exact read_fresh (m := vm2.mem) (b := []) (by simp) rfl rfl

theorem allocJ0s_ok (aes : AesFn) (key iv : VmVec) (k i : Bytes) (records : List Record) {vm : ZkVm}
    (hk : Holds vm key k) (hi : Holds vm iv i) (hn : ∀ r ∈ records, r.nonce.length = 8) :
    ∃ vm', allocJ0s aes key iv records vm =
        .ok (vm', records.map fun r => (aes k (i ++ (r.nonce ++ beBytes 4 1))).toList) ∧ Grew vm vm' := by
  induction records generalizing vm with
  | nil => exact ⟨vm, rfl, Grew.refl vm⟩
  | cons r rs ih =>
    obtain ⟨vm1, b, h1, h2, h3⟩ := allocJ0_ok aes hk hi (hn r (by simp))
    have hg : Grew vm (vm1.decode b).1 := h2
    obtain ⟨vm2, h4, h5⟩ := ih (hk.mono hg) (hi.mono hg) fun r hr => hn r (by simp [hr])
    refine ⟨vm2, ?_, hg.trans h5⟩
    simp only [allocJ0s, h1, Outcome.bind_ok, h4, Outcome.pure_eq, List.map_cons]
    rw [show (vm1.decode b).2 = _ from h3.2]

theorem allocJ0s_err (aes : AesFn) (key iv : VmVec) (k i : Bytes) (records : List Record) {vm : ZkVm}
    (hk : Holds vm key k) (hi : Holds vm iv i) (hn : ∃ r ∈ records, r.nonce.length ≠ 8) :
    allocJ0s aes key iv records vm = .err .nonceLength := by
  induction records generalizing vm with
  | nil => simp at hn
  | cons r rs ih =>
    by_cases h8 : r.nonce.length = 8
    · obtain ⟨vm1, b, h1, h2, h3⟩ := allocJ0_ok aes hk hi h8
      have hg : Grew vm (vm1.decode b).1 := h2
      have := ih (hk.mono hg) (hi.mono hg) (by
        obtain ⟨x, hx, hne⟩ := hn
        rcases List.mem_cons.1 hx with rfl | hx
        · exact absurd h8 hne
        · exact ⟨x, hx, hne⟩)
      simp only [allocJ0s, h1, Outcome.bind_ok, this]
      rfl
    · simp only [allocJ0s, allocJ0, ne_eq, h8, not_false_eq_true, if_true]
      rfl

theorem checkTags_spec (version : TlsVersion) (mac : Bytes) (f : Record → Bytes) (records : List Record) :
    (checkTags version mac ((records.map f).zip records) = .ok () ↔
      ∀ r ∈ records, r.tag = some (gcmTag mac (f r)
        (makeTls12Aad r.seq r.typ version.protocol r.ciphertext.length) r.ciphertext)) ∧
    (checkTags version mac ((records.map f).zip records) = .err .unknownTag →
      ∃ r ∈ records, r.tag = none) ∧
    (checkTags version mac ((records.map f).zip records) = .err .invalidTag →
      ∃ r ∈ records, ∃ t, r.tag = some t ∧ t ≠ gcmTag mac (f r)
        (makeTls12Aad r.seq r.typ version.protocol r.ciphertext.length) r.ciphertext) ∧
    (checkTags version mac ((records.map f).zip records) = .ok () ∨
      checkTags version mac ((records.map f).zip records) = .err .unknownTag ∨
      checkTags version mac ((records.map f).zip records) = .err .invalidTag) := by
  induction records with
  | nil => simp [checkTags]
  | cons r rs ih =>
    simp only [List.map_cons, List.zip_cons_cons, checkTags]
    cases ht : r.tag with
    | none => simp [ht]
    | some t =>
      simp only [ne_eq, ite_not, List.mem_cons, forall_eq_or_imp, ht, Option.some.injEq]
      have hx : xorBytes (ghashTag (makeTls12Aad r.seq r.typ version.protocol r.ciphertext.length) r.ciphertext mac) (f r) =
          gcmTag mac (f r) (makeTls12Aad r.seq r.typ version.protocol r.ciphertext.length) r.ciphertext := by
        rw [xorBytes_comm]; rfl
      rw [hx]
      by_cases hc : t = gcmTag mac (f r) (makeTls12Aad r.seq r.typ version.protocol r.ciphertext.length) r.ciphertext
      · rw [if_pos hc]
        obtain ⟨h1, h2, h3, h4⟩ := ih
        refine ⟨?_, ?_, ?_, h4⟩
        · rw [h1]; exact ⟨fun h => ⟨hc, h⟩, fun h => h.2⟩
        · intro h; obtain ⟨x, hx, hn⟩ := h2 h; exact ⟨x, .inr hx, hn⟩
        · intro h; obtain ⟨x, hx, hn⟩ := h3 h; exact ⟨x, .inr hx, hn⟩
      · rw [if_neg hc]
        refine ⟨by simp [hc], by simp, fun _ => ⟨r, .inl rfl, t, ht, hc⟩, by simp⟩

/-- **C35** For every list of records: preparing the proof fails exactly when an explicit nonce does not have eight
bytes; otherwise the verification succeeds exactly when every record has a tag and it is the AES-GCM tag of this record:
for its own sequence number, type, length, nonce and ciphertext, and the version of the connection. -/
theorem C35_accept_iff (aes : AesFn) (vm : ZkVm) (key iv mac : VmVec) (version : TlsVersion) (records : List Record)
    (hkey : key.addr + key.len ≤ vm.mem.length) (hiv : iv.addr + iv.len ≤ vm.mem.length)
    (hmac : mac.addr + mac.len ≤ vm.mem.length) :
    ((∃ r ∈ records, r.nonce.length ≠ 8) → verifyTags aes vm key iv mac version records = .err .nonceLength) ∧
    ((∀ r ∈ records, r.nonce.length = 8) →
      ∃ vm' proof, verifyTags aes vm key iv mac version records = .ok (vm', proof) ∧
        (proof.verify = .ok () ↔
          ∀ r ∈ records, r.tag = some (recordTag aes (vm.read key) (vm.read iv) (vm.read mac) version r)) ∧
        (proof.verify = .ok () ∨ proof.verify = .err .unknownTag ∨ proof.verify = .err .invalidTag) ∧
        (proof.verify = .err .unknownTag → ∃ r ∈ records, r.tag = none) ∧
        (proof.verify = .err .invalidTag → ∃ r ∈ records, ∃ t, r.tag = some t ∧
          t ≠ recordTag aes (vm.read key) (vm.read iv) (vm.read mac) version r)) := by
  constructor
  · intro h
    simp only [verifyTags, allocJ0s_err aes key iv _ _ records ⟨hkey, rfl⟩ ⟨hiv, rfl⟩ h]
    rfl
  · intro h
    obtain ⟨vm', h1, h2⟩ := allocJ0s_ok aes key iv _ _ records ⟨hkey, rfl⟩ ⟨hiv, rfl⟩ h
    have hv : verifyTags aes vm key iv mac version records = .ok ((vm'.decode mac).1, ⟨version,
        records.map fun r => (aes (vm.read key) (vm.read iv ++ (r.nonce ++ beBytes 4 1))).toList, records,
        (vm'.decode mac).2⟩) := by
      simp only [verifyTags, h1, Outcome.bind_ok, Outcome.pure_eq]
    refine ⟨_, _, hv, ?_⟩
    have hm : (vm'.decode mac).2 = vm.read mac := (Holds.mono h2 (v := mac) (b := vm.read mac) ⟨hmac, rfl⟩).2
    obtain ⟨c1, c2, c3, c4⟩ := checkTags_spec version (vm.read mac)
      (fun r => (aes (vm.read key) (vm.read iv ++ (r.nonce ++ beBytes 4 1))).toList) records
    simp only [makeTls12Aad_version] at c1 c3
    simp only [TagProof.verify, hm]
    exact ⟨c1, c4, c2, c3⟩

/-- **C35** An accepted proof leaves no room: if two record lists with the same sequence numbers, types, nonces and
ciphertexts are accepted then their tags are the same. -/
theorem C35_tags_determined (aes : AesFn) (vm : ZkVm) (key iv mac : VmVec) (version : TlsVersion)
    (records records' : List Record)
    (hkey : key.addr + key.len ≤ vm.mem.length) (hiv : iv.addr + iv.len ≤ vm.mem.length)
    (hmac : mac.addr + mac.len ≤ vm.mem.length)
    (hsame : records.map (fun r => (r.seq, r.typ, r.nonce, r.ciphertext)) =
      records'.map fun r => (r.seq, r.typ, r.nonce, r.ciphertext))
    (vm₁ vm₂ : ZkVm) (p₁ p₂ : TagProof)
    (h₁ : verifyTags aes vm key iv mac version records = .ok (vm₁, p₁)) (a₁ : p₁.verify = .ok ())
    (h₂ : verifyTags aes vm key iv mac version records' = .ok (vm₂, p₂)) (a₂ : p₂.verify = .ok ()) :
    records.map (·.tag) = records'.map (·.tag) := by
  have key1 : ∀ (rs : List Record) (w : ZkVm) (p : TagProof), verifyTags aes vm key iv mac version rs = .ok (w, p) →
      p.verify = .ok () →
      ∀ r ∈ rs, r.tag = some (recordTag aes (vm.read key) (vm.read iv) (vm.read mac) version r) := by
    intro rs w p hp ha
    obtain ⟨b1, b2⟩ := C35_accept_iff aes vm key iv mac version rs hkey hiv hmac
    by_cases hn : ∃ r ∈ rs, r.nonce.length ≠ 8
    · rw [b1 hn] at hp; cases hp
    · obtain ⟨w', p', h, hiff, _⟩ := b2 fun r hr => by
        apply Classical.byContradiction; intro h; exact hn ⟨r, hr, h⟩
      rw [hp] at h
      simp only [Outcome.ok.injEq, Prod.mk.injEq] at h
      obtain ⟨rfl, rfl⟩ := h
      exact hiff.1 ha
  have t1 := key1 _ _ _ h₁ a₁
  have t2 := key1 _ _ _ h₂ a₂
  have hlen : records.length = records'.length := by simpa using congrArg List.length hsame
  apply List.ext_getElem
  · simp [hlen]
  · intro j hj1 hj2
    simp only [List.length_map] at hj1 hj2
    simp only [List.getElem_map]
    rw [t1 _ (List.getElem_mem hj1), t2 _ (List.getElem_mem hj2)]
    have hj := congrArg (·[j]?) hsame
    simp only [List.getElem?_map, List.getElem?_eq_getElem hj1, List.getElem?_eq_getElem hj2, Option.map_some,
      Option.some.injEq, Prod.mk.injEq] at hj
    obtain ⟨e1, e2, e3, e4⟩ := hj
    simp only [recordTag, e1, e2, e3, e4]

/-- The records of the examples, with their tags. -/
def exTagged : List Record :=
  ([⟨0, .handshake, none, [0, 0, 0, 0, 0, 0, 0, 1], [10, 20, 30], none⟩,
    ⟨1, .applicationData, none, [0, 0, 0, 0, 0, 0, 0, 2], [40, 50], none⟩] : List Record).map fun r =>
      { r with tag := some (recordTag exAes exKeyBytes.serverKey exKeyBytes.serverIv exKeyBytes.clientKey .v12 r) }

/-- Example for C35: the right tags are accepted; with the tags exchanged, a missing tag or another sequence number they
are not. -/
example :
    (match verifyTags exAes (exZkVm fun _ => 0) ⟨20, 16⟩ ⟨36, 4⟩ ⟨0, 16⟩ .v12 exTagged with
      | .ok (_, p) => decide (p.verify = .ok ())
      | _ => false) = true ∧
    (match verifyTags exAes (exZkVm fun _ => 0) ⟨20, 16⟩ ⟨36, 4⟩ ⟨0, 16⟩ .v12
        (exTagged.map fun r => { r with seq := r.seq + 1 }) with
      | .ok (_, p) => decide (p.verify = .err .invalidTag)
      | _ => false) = true ∧
    (match verifyTags exAes (exZkVm fun _ => 0) ⟨20, 16⟩ ⟨36, 4⟩ ⟨0, 16⟩ .v12
        (exTagged.map fun r => { r with tag := none }) with
      | .ok (_, p) => decide (p.verify = .err .unknownTag)
      | _ => false) = true := by decide +kernel

end Tlsn
