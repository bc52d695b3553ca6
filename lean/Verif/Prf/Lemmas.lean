import Verif.Prf.Model
import Verif.Prf.Spec

/-! # Values of references, and the hashes computed from them -/

namespace Tlsn.Hmac

theorem Env.Le.refl (a : Env) : a.Le a := fun _ _ h => h
theorem Env.Le.trans {a b c : Env} (h1 : a.Le b) (h2 : b.Le c) : a.Le c := fun i v h => h2 i v (h1 i v h)

/-- The value of a reference has its length. -/
def VecRef.SizedAt (r : VecRef) (e : Env) : Prop := ∀ v, r.val.run e = some v → v.length = r.len

/-- The values of a reference have its length, whatever the inputs are. -/
def VecRef.Sized (r : VecRef) : Prop := ∀ e, r.SizedAt e

@[simp] theorem Ref.const_run {α : Type} (a : α) (e : Env) : (Ref.const a).run e = some a := rfl
@[simp] theorem Ref.input_run (i n : Nat) (e : Env) : (Ref.input i n).run e = (e i).filter (·.length == n) := rfl

theorem Ref.input_sized (i n : Nat) : (⟨some i, n, Ref.input i n⟩ : VecRef).Sized := by
  intro e v hv
  have := (Option.filter_eq_some_iff.mp hv).2
  simpa using this

/-- The value of an input that has the right length. -/
theorem Ref.input_eq (i n : Nat) (e : Env) (h : ∀ v, e i = some v → v.length = n) : (Ref.input i n).run e = e i := by
  rw [Ref.input_run]
  cases he : e i with
  | none => rfl
  | some v => simp [h v he]
@[simp] theorem Ref.map_run {α β : Type} (f : α → β) (r : Ref α) (e : Env) : (r.map f).run e = (r.run e).map f := rfl
@[simp] theorem Ref.map2_run {α β γ : Type} (f : α → β → γ) (r : Ref α) (s : Ref β) (e : Env) :
    (Ref.map2 f r s).run e = (r.run e).bind fun x => (s.run e).map (f x) := rfl

theorem concatRefs_cons (r : VecRef) (l : List VecRef) (e : Env) :
    (concatRefs (r :: l)).run e = (r.val.run e).bind fun x => ((concatRefs l).run e).map (x ++ ·) := rfl

@[simp] theorem concatRefs_nil (e : Env) : (concatRefs []).run e = some [] := rfl

theorem foldl_update_st (l : List VecRef) (h : ShaRef) : (l.foldl ShaRef.update h).st = h.st := by
  induction l generalizing h with
  | nil => rfl
  | cons r l ih => rw [List.foldl_cons, ih]; rfl

theorem foldl_update_blocks (l : List VecRef) (h : ShaRef) : (l.foldl ShaRef.update h).blocks = h.blocks := by
  induction l generalizing h with
  | nil => rfl
  | cons r l ih => rw [List.foldl_cons, ih]; rfl

theorem foldl_update_len (l : List VecRef) (h : ShaRef) :
    (l.foldl ShaRef.update h).len = h.len + (l.map (·.len)).sum := by
  induction l generalizing h with
  | nil => simp
  | cons r l ih => rw [List.foldl_cons, ih]; simp [ShaRef.update]; omega

theorem foldl_update_buf (l : List VecRef) (h : ShaRef) (e : Env) :
    (l.foldl ShaRef.update h).buf.run e = (h.buf.run e).bind fun b => ((concatRefs l).run e).map (b ++ ·) := by
  induction l generalizing h with
  | nil => cases hh : h.buf.run e <;> simp [hh]
  | cons r l ih =>
    rw [List.foldl_cons, ih, concatRefs_cons]
    show ((h.buf.run e).bind fun x => (r.val.run e).map (x ++ ·)).bind _ = _
    cases h.buf.run e with
    | none => rfl
    | some b =>
      cases r.val.run e with
      | none => rfl
      | some x => cases (concatRefs l).run e <;> simp

theorem concatRefs_length (l : List VecRef) (e : Env) (v : Bytes) (hs : ∀ r ∈ l, r.SizedAt e)
    (h : (concatRefs l).run e = some v) : v.length = (l.map (·.len)).sum := by
  induction l generalizing v with
  | nil => cases h; rfl
  | cons r l ih =>
    rw [concatRefs_cons] at h
    obtain ⟨x, hx, h⟩ := Option.bind_eq_some_iff.mp h
    obtain ⟨y, hy, rfl⟩ := Option.map_eq_some_iff.mp h
    have h1 := hs r (by simp) x hx
    have h2 := ih y (fun r hr => hs r (by simp [hr])) hy
    simp [h1, h2]

/-- SHA-256 over a masked key followed by messages. -/
theorem keyed_run (S : Sha) (key : VecRef) (c : Byte) (l : List VecRef) (e : Env)
    (hk : key.Sized) (hk64 : key.len ≤ 64) (hl : ∀ r ∈ l, r.SizedAt e) :
    (((l.foldl ShaRef.update (computePartial S key (List.replicate 64 c))).compress S).finalize S).val.run e =
      (key.val.run e).bind fun k => ((concatRefs l).run e).map fun m => S.sha256 (maskKey k c ++ m) := by
  have hst : (computePartial S key (List.replicate 64 c)).st.run e =
      (key.val.run e).map fun k => S.absorb S.iv (xorBytes (k ++ zeros (64 - key.len)) (List.replicate 64 c)) := by
    simp only [computePartial, ShaRef.compress, ShaRef.update, ShaRef.init, Ref.map2_run, Ref.const_run, Ref.map_run,
      Option.bind_some]
    cases hkv : key.val.run e <;> simp
  have hbuf : (computePartial S key (List.replicate 64 c)).buf.run e = (key.val.run e).map fun _ => [] := by
    simp only [computePartial, ShaRef.compress, ShaRef.update, ShaRef.init, Ref.map2_run, Ref.const_run, Ref.map_run,
      Option.bind_some]
    cases hkv : key.val.run e with
    | none => simp
    | some k =>
      have := hk e k hkv
      simp only [Option.map_some, List.nil_append, Option.some.injEq]
      apply List.drop_of_length_le
      simp; omega
  have hblocks : (computePartial S key (List.replicate 64 c)).blocks = 1 := by
    simp [computePartial, ShaRef.compress, ShaRef.update, ShaRef.init]
  have hlen : (computePartial S key (List.replicate 64 c)).len = 0 := by
    simp [computePartial, ShaRef.compress, ShaRef.update, ShaRef.init]
  generalize computePartial S key (List.replicate 64 c) = h at hst hbuf hblocks hlen
  simp only [ShaRef.finalize, ShaRef.compress, Ref.map2_run, Ref.map_run, foldl_update_st, foldl_update_buf,
    foldl_update_blocks, foldl_update_len, hst, hbuf, hblocks, hlen]
  cases hkv : key.val.run e with
  | none => simp
  | some k =>
    cases hm : (concatRefs l).run e with
    | none => simp
    | some m =>
      have hml := concatRefs_length l e m hl hm
      have hkl := hk e k hkv
      simp only [Option.map_some, Option.bind_some, List.nil_append, Nat.zero_add, ← hml, Option.some.injEq]
      have hmk : xorBytes (k ++ zeros (64 - key.len)) (List.replicate 64 c) = maskKey k c := by rw [maskKey, hkl]
      rw [hmk, S.sha256_from_state _ _ (maskKey_length k c (by omega)), S.absorb_split _ m]
      have : 64 * (1 + m.length / 64) + m.length % 64 = m.length + 64 := by omega
      rw [this]

theorem hmacRef_run (S : Sha) (key inner : VecRef) (e : Env) (hk : key.Sized) (hk64 : key.len ≤ 64) (hi : inner.SizedAt e) :
    (hmacRef S (computePartial S key opad) inner).val.run e =
      (key.val.run e).bind fun k => (inner.val.run e).map fun x => S.sha256 (maskKey k 0x5c ++ x) := by
  have := keyed_run S key 0x5c [inner] e hk hk64 (by simpa using hi)
  rw [concatRefs_cons] at this
  show (((List.foldl ShaRef.update _ [inner]).compress S).finalize S).val.run e = _
  rw [opad, this]
  cases key.val.run e <;> cases inner.val.run e <;> simp

/-- The hash inside HMAC. -/
def Sha.innerHash (S : Sha) (k m : Bytes) : Bytes := S.sha256 (maskKey k 0x36 ++ m)

theorem Sha.hmac_eq (S : Sha) (k m : Bytes) : S.sha256 (maskKey k 0x5c ++ S.innerHash k m) = S.hmac k m := rfl

theorem hmacRef_sized (S : Sha) (outer : ShaRef) (inner : VecRef) : (hmacRef S outer inner).Sized := by
  intro e v h
  obtain ⟨x, _, h⟩ := Option.bind_eq_some_iff.mp h
  obtain ⟨y, _, rfl⟩ := Option.map_eq_some_iff.mp h
  exact stateToBytes_length _

theorem normalHash_run (S : Sha) (key : VecRef) (msg : List VecRef) (e : Env) (hk : key.Sized) (hk64 : key.len ≤ 64)
    (hl : ∀ r ∈ msg, r.SizedAt e) :
    (NormalHash.alloc S (computePartial S key opad) (computePartial S key ipad) msg).output.val.run e =
      (key.val.run e).bind fun k => ((concatRefs msg).run e).map fun m => S.hmac k m := by
  have hs : (((msg.foldl ShaRef.update (computePartial S key ipad)).compress S).finalize S).Sized := by
    intro e v h
    obtain ⟨x, _, h⟩ := Option.bind_eq_some_iff.mp h
    obtain ⟨y, _, rfl⟩ := Option.map_eq_some_iff.mp h
    exact stateToBytes_length _
  show (hmacRef S (computePartial S key opad) _).val.run e = _
  rw [hmacRef_run S key _ e hk hk64 (hs e), ipad, keyed_run S key 0x36 msg e hk hk64 hl]
  cases key.val.run e <;> cases (concatRefs msg).run e <;> simp [Sha.hmac]

/-- The state that the reduced mode decodes is that after the masked key. -/
theorem partial_st_run (S : Sha) (key : VecRef) (e : Env) (hk : key.Sized) :
    (computePartial S key ipad).st.run e = (key.val.run e).map fun k => S.absorb S.iv (maskKey k 0x36) := by
  simp only [computePartial, ShaRef.compress, ShaRef.update, ShaRef.init, Ref.map2_run, Ref.const_run, Ref.map_run,
    Option.bind_some]
  cases hkv : key.val.run e with
  | none => simp
  | some k =>
    have hkl := hk e k hkv
    simp [maskKey, hkl, ipad]

/-- What the reduced mode computes locally is the hash inside HMAC. -/
theorem local_innerHash (S : Sha) (k m : Bytes) (hk : k.length ≤ 64) :
    stateToBytes (localSha256 S (S.absorb S.iv (maskKey k 0x36)) 64 m) = S.innerHash k m := by
  rw [localSha256_eq _ _ _ _ rfl, Sha.innerHash, S.sha256_from_state _ _ (maskKey_length k _ hk)]

/-! ## The outputs of the normal mode -/

theorem normalLoop_length (S : Sha) (outer inner : ShaRef) (seedRef : VecRef) (n : Nat) (m : VecRef) :
    (normalLoop S outer inner seedRef n m).1.length = n ∧ (normalLoop S outer inner seedRef n m).2.length = n := by
  induction n generalizing m with
  | zero => exact ⟨rfl, rfl⟩
  | succ n ih => simp [normalLoop, ih]

theorem normalHash_sized (S : Sha) (outer inner : ShaRef) (msg : List VecRef) :
    (NormalHash.alloc S outer inner msg).output.Sized := hmacRef_sized _ _ _

theorem normalLoop_run (S : Sha) (key seedRef : VecRef) (e : Env) (hk : key.Sized) (hk64 : key.len ≤ 64)
    (hs : seedRef.SizedAt e) (n j : Nat) (m : VecRef) (hm : m.SizedAt e)
    (h : ∀ k, key.val.run e = some k → m.val.run e = (seedRef.val.run e).map fun sl => S.aSeq k sl j)
    (i : Nat) (hi : i < n) :
    ∃ p, (normalLoop S (computePartial S key opad) (computePartial S key ipad) seedRef n m).2[i]? = some p ∧
      p.output.val.run e = (key.val.run e).bind fun k => (seedRef.val.run e).map fun sl =>
        S.hmac k (S.aSeq k sl (j + i + 1) ++ sl) := by
  induction n generalizing j m i with
  | zero => omega
  | succ n ih =>
    have ha := normalHash_run S key [m] e hk hk64 (by simpa using hm)
    have hsz := normalHash_sized S (computePartial S key opad) (computePartial S key ipad) [m]
    have ha' : ∀ k, key.val.run e = some k →
        (NormalHash.alloc S (computePartial S key opad) (computePartial S key ipad) [m]).output.val.run e =
          (seedRef.val.run e).map fun sl => S.aSeq k sl (j + 1) := by
      intro k hkv
      rw [ha, hkv, concatRefs_cons, h k hkv]
      cases seedRef.val.run e <;> simp [Sha.aSeq]
    cases i with
    | zero =>
      refine ⟨_, rfl, ?_⟩
      rw [normalHash_run S key _ e hk hk64 (by
        intro r hr
        rcases List.mem_cons.mp hr with rfl | hr
        · exact hsz e
        · rw [List.mem_singleton.mp hr]; exact hs)]
      cases hkv : key.val.run e with
      | none => rfl
      | some k =>
        rw [concatRefs_cons, concatRefs_cons, ha' k hkv]
        cases seedRef.val.run e <;> simp
    | succ i =>
      obtain ⟨p, hp, hv⟩ := ih (j + 1) _ (hsz e) ha' i (by omega)
      refine ⟨p, hp, ?_⟩
      rw [hv]
      have : j + 1 + i + 1 = j + (i + 1) + 1 := by omega
      rw [this]

end Tlsn.Hmac
