import Verif.RecordLayer.Props
import Verif.Cipher.Props
import Mathlib.Data.List.Nodup

/-! # C27: nonces and counters are used once -/

namespace Tlsn

/-- The allocation numbers of the blocks not used yet. -/
def Aead.free (a : Aead) : List Nat := a.keystream.blocks ++ a.j0s

/-- `a1` comes from `a` by assigning blocks: the new assignments use nonces in `ns` and counters
satisfying `P`, each pair once, and take their blocks from the unused ones. -/
structure Assigns (a a1 : Aead) (ns : List Bytes) (P : Nat → Prop) : Prop where
  ex : ∃ new : List (Nat × Bytes × Nat), a1.assigned = a.assigned ++ new ∧
    (∀ x ∈ new, x.2.1 ∈ ns ∧ P x.2.2) ∧ (new.map (·.2)).Nodup ∧
    (new.map (·.1) ++ a1.free).Perm a.free

theorem Assigns.refl (a : Aead) (ns : List Bytes) (P : Nat → Prop) : Assigns a a ns P :=
  ⟨⟨[], by simp⟩⟩

theorem Assigns.of_eq {a a1 : Aead} (h1 : a1.assigned = a.assigned) (h2 : a1.free = a.free) (ns : List Bytes)
    (P : Nat → Prop) : Assigns a a1 ns P :=
  ⟨⟨[], by simp [h1, h2]⟩⟩

theorem Assigns.trans {a a1 a2 : Aead} {ns ns' : List Bytes} {P P' : Nat → Prop} (h : Assigns a a1 ns P)
    (h' : Assigns a1 a2 ns' P') (hd : (∀ n ∈ ns, n ∉ ns') ∨ ∀ c, P c → ¬ P' c) :
    Assigns a a2 (ns ++ ns') (fun c => P c ∨ P' c) := by
  obtain ⟨new, e1, p1, n1, q1⟩ := h.ex
  obtain ⟨new', e2, p2, n2, q2⟩ := h'.ex
  refine ⟨⟨new ++ new', by rw [e2, e1, List.append_assoc], ?_, ?_, ?_⟩⟩
  · intro x hx
    rcases List.mem_append.1 hx with hx | hx
    · exact ⟨List.mem_append_left _ (p1 x hx).1, .inl (p1 x hx).2⟩
    · exact ⟨List.mem_append_right _ (p2 x hx).1, .inr (p2 x hx).2⟩
  · rw [List.map_append, List.nodup_append]
    refine ⟨n1, n2, ?_⟩
    rintro _ hx _ hy rfl
    obtain ⟨x, hx', hxy⟩ := List.mem_map.1 hx
    obtain ⟨y, hy', rfl⟩ := List.mem_map.1 hy
    have a1 := p1 x hx'
    have a2 := p2 y hy'
    rw [hxy] at a1
    rcases hd with hd | hd
    · exact hd _ a1.1 a2.1
    · exact hd _ a1.2 a2.2
  · rw [List.map_append, List.append_assoc]
    exact (q2.append_left _).trans q1

theorem Assigns.mono {a a1 : Aead} {ns ns' : List Bytes} {P P' : Nat → Prop} (h : Assigns a a1 ns P)
    (hn : ∀ n ∈ ns, n ∈ ns') (hP : ∀ c, P c → P' c) : Assigns a a1 ns' P' := by
  obtain ⟨new, e1, p1, n1, q1⟩ := h.ex
  exact ⟨⟨new, e1, fun x hx => ⟨hn _ (p1 x hx).1, hP _ (p1 x hx).2⟩, n1, q1⟩⟩

theorem assign_mem {ks : Keystream} {nonce : Bytes} {st : Nat} {x : Nat × Bytes × Nat}
    (h : x ∈ ks.assign nonce st) : x.2.1 = nonce ∧ st ≤ x.2.2 := by
  simp only [Keystream.assign, List.mem_mapIdx] at h
  obtain ⟨i, hi, rfl⟩ := h
  exact ⟨rfl, by simp⟩

theorem assign_ids (ks : Keystream) (nonce : Bytes) (st : Nat) :
    (ks.assign nonce st).map (·.1) = ks.blocks := by
  exact List.ext_getElem (by simp [Keystream.assign]) (by simp [Keystream.assign])

theorem assign_nodup (ks : Keystream) (nonce : Bytes) (st : Nat) :
    ((ks.assign nonce st).map (·.2)).Nodup := by
  rw [List.nodup_iff_injective_get]
  intro i j h
  have h' : st + i.1 = st + j.1 := by
    have := congrArg Prod.snd h
    rw [List.get_eq_getElem, List.get_eq_getElem, List.getElem_map, List.getElem_map] at this
    simpa [Keystream.assign] using this
  exact Fin.ext (by omega)

theorem consume_assigns {a : Aead} {nonce : Bytes} {len inp : Nat} {rest got : Keystream}
    (h : a.keystream.consume len = some (rest, got)) :
    Assigns a { a with input := inp, keystream := rest, assigned := a.assigned ++ got.assign nonce 2 } [nonce]
      (2 ≤ ·) := by
  have h1 := ((C46_consume a.keystream len).2 rest got h).1
  refine ⟨⟨got.assign nonce 2, rfl, fun x hx => ?_, assign_nodup _ _ _, ?_⟩⟩
  · have := assign_mem hx; simp [this.1, this.2]
  · rw [assign_ids]
    simp only [Aead.free, ← h1, ← List.append_assoc]
    exact List.perm_append_comm.append_right _

theorem applyKeystream_assigns (a : Aead) (nonce : Bytes) (len : Nat) :
    Assigns a (a.applyKeystream nonce len).1 [nonce] (2 ≤ ·) := by
  simp only [Aead.applyKeystream]
  split
  · exact Assigns.refl _ _ _
  · split
    · exact Assigns.refl _ _ _
    · split
      · exact ⟨⟨[], by simp [Aead.free]⟩⟩
      · rename_i rest got hg
        split
        · rename_i he
          refine ⟨⟨[], by simp, by simp, by simp, ?_⟩⟩
          have h1 := ((C46_consume a.keystream _).2 rest got hg).1
          rw [List.isEmpty_iff.1 he, List.append_nil] at h1
          simp [Aead.free, h1]
        · exact consume_assigns hg

theorem takeKeystream_assigns (a : Aead) (nonce : Bytes) (len : Nat) :
    Assigns a (a.takeKeystream nonce len).1 [nonce] (2 ≤ ·) := by
  simp only [Aead.takeKeystream]
  split
  · exact Assigns.refl _ _ _
  · split
    · exact Assigns.refl _ _ _
    · split
      · exact Assigns.refl _ _ _
      · rename_i rest got hg
        have := consume_assigns (a := a) (nonce := nonce) (inp := a.input) hg
        split <;> exact this

theorem encryptOp_assigns (a : Aead) (op : EncryptOp) : Assigns a (a.encryptOp op).1 [op.nonce] (2 ≤ ·) := by
  simp only [Aead.encryptOp]
  split
  · exact applyKeystream_assigns _ _ _
  · split
    · exact Assigns.refl _ _ _
    · exact takeKeystream_assigns _ _ _

theorem encryptOps_assigns (ops : List EncryptOp) (a : Aead) (hn : (ops.map (·.nonce)).Nodup) :
    Assigns a (a.encryptOps ops).1 (ops.map (·.nonce)) (2 ≤ ·) := by
  induction ops generalizing a with
  | nil => exact Assigns.refl _ _ _
  | cons op ops ih =>
    rw [List.map_cons, List.nodup_cons] at hn
    have h1 := encryptOp_assigns a op
    simp only [Aead.encryptOps]
    split
    · rename_i a1 he
      rw [he] at h1
      exact (h1.trans (ih a1 hn.2) (.inl (by simpa using hn.1))).mono (by simp) (by simp)
    · rename_i a1 e he
      rw [he] at h1
      exact h1.mono (by simp) (by simp)

theorem takeJ0_assigns (a : Aead) (nonce : Bytes) : Assigns a (a.takeJ0 nonce).1 [nonce] (· = 1) := by
  simp only [Aead.takeJ0]
  split
  · exact Assigns.refl _ _ _
  · split
    · exact Assigns.refl _ _ _
    · rename_i id hid
      refine ⟨⟨[(id, nonce, 1)], rfl, by simp, by simp, ?_⟩⟩
      have : a.j0s = a.j0s.dropLast ++ [id] := by
        have hne : a.j0s ≠ [] := by rintro h; simp [h] at hid
        have := List.dropLast_append_getLast hne
        rw [List.getLast?_eq_some_getLast hne] at hid
        simp only [Option.some.injEq] at hid
        rw [hid] at this; exact this.symm
      simp only [Aead.free, List.map_cons, List.map_nil]
      conv => rhs; rw [this]
      rw [← List.append_assoc a.keystream.blocks]
      exact List.perm_append_comm

theorem takeJ0s_assigns (ns : List Bytes) (a : Aead) (hn : ns.Nodup) :
    Assigns a (a.takeJ0s ns).1 ns (· = 1) := by
  induction ns generalizing a with
  | nil => exact Assigns.refl _ _ _
  | cons n ns ih =>
    rw [List.nodup_cons] at hn
    have h1 := takeJ0_assigns a n
    simp only [Aead.takeJ0s]
    split
    · rename_i a1 he
      rw [he] at h1
      exact (h1.trans (ih a1 hn.2) (.inl (by simpa using hn.1))).mono (by simp) (by simp)
    · rename_i a1 e he
      rw [he] at h1
      exact h1.mono (by simp) (by simp)

theorem encryptAll_assigns (ops : List EncryptOp) (a : Aead) (hn : (ops.map (·.nonce)).Nodup) :
    Assigns a (a.encryptAll ops).1 (ops.map (·.nonce)) (1 ≤ ·) := by
  have h1 := encryptOps_assigns ops a hn
  simp only [Aead.encryptAll]
  split
  · rename_i a1 e he
    rw [he] at h1
    exact h1.mono (by simp) (fun c hc => by omega)
  · rename_i a1 he
    rw [he] at h1
    have h2 : Assigns a1 (a1.tags (ops.map (·.nonce))).1 (ops.map (·.nonce)) (· = 1) := by
      simp only [Aead.tags]
      split
      · exact Assigns.refl _ _ _
      · exact takeJ0s_assigns _ _ hn
    exact (h1.trans h2 (.inr (fun c hc => by omega))).mono (by simp) (fun c hc => by omega)

/-- The invariant behind C27. -/
structure NonceInv (r : RecordLayer) (n : Nat) (ids : List Nat) : Prop where
  write : r.writeSeq = n % 2 ^ 64
  used : (r.encrypter.assigned.map (·.2)).Nodup
  blocks : (r.encrypter.assigned.map (·.1) ++ r.encrypter.free).Perm ids
  buf : ∃ M ≤ n, (∀ op ∈ r.encryptBuffer, M ≤ op.seq ∧ op.seq < n ∧ op.nonce = beBytes 8 op.seq) ∧
    r.encryptBuffer.Pairwise (fun a b => a.seq < b.seq) ∧
    ∀ x ∈ r.encrypter.assigned, ∃ s < M, x.2.1 = beBytes 8 s

theorem NonceInv.frame {r r' : RecordLayer} {n : Nat} {ids : List Nat} (h : NonceInv r n ids)
    (h1 : r'.writeSeq = r.writeSeq) (h2 : r'.encrypter = r.encrypter) (h3 : r'.encryptBuffer = r.encryptBuffer) :
    NonceInv r' n ids := ⟨by rw [h1, h.write], by rw [h2]; exact h.used, by rw [h2]; exact h.blocks,
      by rw [h2, h3]; exact h.buf⟩

theorem nonceInv_step {k : SessionFns} {peer : Nat → Bytes} {r : RecordLayer} {n : Nat} {ids : List Nat}
    (h : NonceInv r n ids) (hn : n < 2 ^ 64) (c : RlCall) :
    NonceInv (r.step k peer c).1 (nextW n (c, (r.step k peer c).2)) ids := by
  cases c with
  | startTraffic => exact h.frame rfl rfl rfl
  | nextEncrypted =>
    simp only [RecordLayer.step, RecordLayer.nextEncrypted]
    split
    · exact h
    · split
      · exact h
      · exact h.frame rfl rfl rfl
  | nextDecrypted =>
    simp only [RecordLayer.step, RecordLayer.nextDecrypted]
    split
    · exact h
    · split
      · exact h
      · exact h.frame rfl rfl rfl
  | pushDecrypt t v nc ct tg =>
    have hW : ∀ x, nextW n (.pushDecrypt t v nc ct tg, x) = n := fun x => rfl
    rw [hW]
    simp only [RecordLayer.step, RecordLayer.pushDecrypt]
    split
    · exact h
    · split
      · exact h
      · exact h.frame rfl rfl rfl
  | commit env =>
    have hW : ∀ x, nextW n (.commit env, x) = n := fun x => rfl
    rw [hW]
    have : (r.commit k env).1.writeSeq = r.writeSeq ∧ (r.commit k env).1.encrypter = r.encrypter ∧
        (r.commit k env).1.encryptBuffer = r.encryptBuffer := by
      simp only [RecordLayer.commit]
      repeat' split
      all_goals exact ⟨rfl, rfl, rfl⟩
    exact h.frame this.1 this.2.1 this.2.2
  | pushEncrypt t v l p =>
    have hseq : r.writeSeq = n := by rw [h.write]; exact Nat.mod_eq_of_lt hn
    obtain ⟨M, hM, hb, hp, ha⟩ := h.buf
    simp only [RecordLayer.step, RecordLayer.pushEncrypt]
    split
    · exact h
    · split
      · exact h
      · split
        · rename_i e he
          have : e = .plaintext := by
            simp only [EncryptOp.new] at he
            split at he
            · simp only [Except.error.injEq] at he; exact he.symm
            · split at he
              · simp only [Except.error.injEq] at he; exact he.symm
              · simp at he
          subst this
          refine ⟨by change (r.writeSeq + 1) % 2 ^ 64 = (n + 1) % 2 ^ 64; rw [hseq], h.used, h.blocks,
            M, by change M ≤ n + 1; omega, fun op ho => ?_, hp, ha⟩
          have := hb op ho
          exact ⟨this.1, by change op.seq < n + 1; omega, this.2.2⟩
        · rename_i op hop
          have hop : op.seq = n ∧ op.nonce = beBytes 8 op.seq := by
            simp only [EncryptOp.new] at hop
            split at hop
            · simp at hop
            · split at hop
              · simp at hop
              · simp only [Except.ok.injEq] at hop
                subst hop
                exact ⟨hseq, rfl⟩
          refine ⟨by change (r.writeSeq + 1) % 2 ^ 64 = (n + 1) % 2 ^ 64; rw [hseq], h.used, h.blocks,
            M, by change M ≤ n + 1; omega, fun op' ho => ?_, ?_, ha⟩
          · change _ ∧ op'.seq < n + 1 ∧ _
            rcases List.mem_append.1 ho with ho | ho
            · have := hb op' ho
              exact ⟨this.1, by omega, this.2.2⟩
            · simp only [List.mem_singleton] at ho
              subst ho
              exact ⟨by omega, by omega, hop.2⟩
          · rw [List.pairwise_append]
            refine ⟨hp, by simp, ?_⟩
            intro x hx y hy
            simp only [List.mem_singleton] at hy
            subst hy
            have := hb x hx
            omega
  | flush env d =>
    have hW : ∀ x, nextW n (.flush env d, x) = n := fun x => rfl
    rw [hW]
    simp only [RecordLayer.step]
    obtain ⟨M, hM, hb, hp, ha⟩ := h.buf
    rcases flush_frame k peer env r d with ⟨e, hf⟩ | ⟨e1, d1, ro, eb, db, st, x, hf, he, -, -⟩
    · rw [hf]; exact h
    · rw [hf]
      rcases he with rfl | rfl
      · refine ⟨h.write, h.used, h.blocks, M, hM, by simp [RecordLayer.afterFlush],
          by simp [RecordLayer.afterFlush], ha⟩
      · have hnd : (r.encryptBuffer.map (·.nonce)).Nodup := by
          rw [List.Nodup, List.pairwise_map]
          refine List.Pairwise.imp_of_mem ?_ hp
          intro a b ha' hb' hlt heq
          have h1 := hb a ha'
          have h2 := hb b hb'
          rw [h1.2.2, h2.2.2] at heq
          have := beBytes_inj (k := 8) (by omega) (by omega) heq
          omega
        have hall := encryptAll_assigns r.encryptBuffer r.encrypter hnd
        obtain ⟨new, q1, q2, q3, q4⟩ := hall.ex
        refine ⟨h.write, ?_, ?_, n, Nat.le_refl _, by simp [RecordLayer.afterFlush],
          by simp [RecordLayer.afterFlush], ?_⟩
        · change ((r.encrypter.encryptAll r.encryptBuffer).1.assigned.map (·.2)).Nodup
          rw [q1, List.map_append, List.nodup_append]
          refine ⟨h.used, q3, ?_⟩
          rintro _ hx _ hy rfl
          obtain ⟨x, hx', hxy⟩ := List.mem_map.1 hx
          obtain ⟨y, hy', rfl⟩ := List.mem_map.1 hy
          obtain ⟨s, hs, hxs⟩ := ha x hx'
          obtain ⟨op, ho, hop⟩ := List.mem_map.1 (q2 y hy').1
          have h1 := hb op ho
          rw [hxy, ← hop, h1.2.2] at hxs
          have := beBytes_inj (k := 8) (by omega) (by omega) hxs
          omega
        · change ((r.encrypter.encryptAll r.encryptBuffer).1.assigned.map (·.1) ++ _).Perm ids
          rw [q1, List.map_append, List.append_assoc]
          exact (q4.append_left _).trans h.blocks
        · intro x hx
          change x ∈ (r.encrypter.encryptAll r.encryptBuffer).1.assigned at hx
          rw [q1] at hx
          rcases List.mem_append.1 hx with hx | hx
          · obtain ⟨s, hs, hxs⟩ := ha x hx
            exact ⟨s, by omega, hxs⟩
          · obtain ⟨op, ho, hop⟩ := List.mem_map.1 (q2 x hx).1
            have h1 := hb op ho
            exact ⟨op.seq, h1.2.1, by rw [← hop, h1.2.2]⟩

theorem nonceInv_run {k : SessionFns} {peer : Nat → Bytes} (cs : List RlCall) {r : RecordLayer} {n : Nat}
    {ids : List Nat} (h : NonceInv r n ids) (hn : n + cs.length ≤ 2 ^ 64) :
    ∃ n' ≤ n + cs.length, NonceInv (r.run k peer cs).1 n' ids := by
  induction cs generalizing r n with
  | nil => exact ⟨n, by simp, h⟩
  | cons c cs ih =>
    simp only [List.length_cons] at hn ⊢
    have h1 := nonceInv_step (k := k) (peer := peer) h (by omega) c
    have hle := nextW_le n (c, (r.step k peer c).2)
    obtain ⟨n', hn', h2⟩ := ih h1 (by omega)
    exact ⟨n', by omega, h2⟩

theorem online_free (role : Role) (otp : Bytes) (a b c d e : Nat) :
    (RecordLayer.online role otp a b c d e).encrypter.free.Perm (List.range (a + divCeil16 c)) := by
  change (List.map (fun x => a + x) (List.range (divCeil16 c)) ++ List.range a).Perm _
  rw [List.range_add]
  exact List.perm_append_comm

/-- **C27** In every history, with whatever failures, no pair of an explicit nonce and a counter is used
for two AES blocks of the sending direction, every nonce used is the eight-byte encoding of a sequence
number, and no allocated counter block is assigned twice. -/
theorem C27_nonce_counter_once (k : SessionFns) (peer : Nat → Bytes) (role : Role) (otp : Bytes)
    (sentRecords recvRecords sentLen recvLenOnline recvLen : Nat) (calls : List RlCall)
    (hc : calls.length ≤ 2 ^ 64) :
    let r := RecordLayer.online role otp sentRecords recvRecords sentLen recvLenOnline recvLen
    let uses := (r.run k peer calls).1.encrypter.assigned
    (uses.map fun u => (u.2.1, u.2.2)).Nodup ∧
    (∀ u ∈ uses, ∃ seq < calls.length, u.2.1 = beBytes 8 seq) ∧
    (uses.map (·.1)).Nodup ∧ ∀ u ∈ uses, u.1 < sentRecords + divCeil16 sentLen := by
  intro r uses
  have h0 : NonceInv r 0 (List.range (sentRecords + divCeil16 sentLen)) :=
    ⟨rfl, List.nodup_nil, online_free _ _ _ _ _ _ _, 0, Nat.le_refl _, by simp [r, RecordLayer.online],
      by simp [r, RecordLayer.online], by simp [r, RecordLayer.online, Aead.alloc]⟩
  obtain ⟨n', hn', h⟩ := nonceInv_run (k := k) (peer := peer) calls h0 (by omega)
  obtain ⟨M, hM, -, -, ha⟩ := h.buf
  have hp := h.blocks
  have hnd := hp.nodup_iff.2 List.nodup_range
  refine ⟨h.used, fun u hu => ?_, ?_, fun u hu => ?_⟩
  · obtain ⟨s, hs, hx⟩ := ha u hu
    exact ⟨s, by omega, hx⟩
  · exact (List.nodup_append.1 hnd).1
  · have := hp.mem_iff.1 (List.mem_append_left _ (List.mem_map_of_mem (f := (·.1)) hu))
    exact List.mem_range.1 this

theorem accepted_seq_lt (h : RlHistory) (n : Nat) :
    (accepted n h).Pairwise (fun a b => a.seq < b.seq) ∧
    ∀ s ∈ accepted n h, n ≤ s.seq ∧ s.seq < n + h.length := by
  induction h generalizing n with
  | nil => simp [accepted]
  | cons x h ih =>
    rw [accepted_cons]
    have h2 := ih (nextW n x)
    have hle := nextW_le n x
    have h1 : ∀ s ∈ accepted n [x], s.seq = n ∧ nextW n x = n + 1 := by
      obtain ⟨c, res⟩ := x
      cases c <;> cases res <;> try (intro s hs; simp [accepted] at hs; done)
      · intro s hs; simp [accepted] at hs; subst hs; exact ⟨rfl, rfl⟩
      · rename_i e; cases e <;> (intro s hs; simp [accepted] at hs)
    have hlen : (accepted n [x]).Pairwise (fun a b => a.seq < b.seq) := by
      obtain ⟨c, res⟩ := x
      cases c <;> cases res <;> try (simp [accepted]; done)
      rename_i e; cases e <;> simp [accepted]
    refine ⟨List.pairwise_append.2 ⟨hlen, h2.1, fun a ha b hb => ?_⟩, fun s hs => ?_⟩
    · have := h1 a ha; have := (h2.2 b hb).1; omega
    · simp only [List.length_cons]
      rcases List.mem_append.1 hs with hs | hs
      · have := h1 s hs; omega
      · have := h2.2 s hs; omega

/-- **C27** The explicit nonces of the records handed out for sending are pairwise different and each is
the eight-byte encoding of a sequence number. -/
theorem C27_released_nonces (k : SessionFns) (peer : Nat → Bytes) (role : Role) (otp : Bytes)
    (sentRecords recvRecords sentLen recvLenOnline recvLen : Nat) (calls : List RlCall)
    (hc : calls.length ≤ 2 ^ 64) :
    let r := RecordLayer.online role otp sentRecords recvRecords sentLen recvLenOnline recvLen
    let nonces := (released (r.history k peer calls)).map (·.nonce)
    nonces.Nodup ∧ ∃ seqs : List Nat, seqs.Pairwise (· < ·) ∧ (∀ s ∈ seqs, s < 2 ^ 64) ∧
      nonces = seqs.map (beBytes 8) := by
  intro r nonces
  have h1 := (C29_order k peer role otp sentRecords recvRecords sentLen recvLenOnline recvLen calls hc).1
  obtain ⟨l, hl, he⟩ := List.sublist_map_iff.1 h1
  have hac := accepted_seq_lt (r.history k peer calls) 0
  have hlen : (r.history k peer calls).length ≤ 2 ^ 64 := by
    simp only [RecordLayer.history, List.length_zip]; omega
  have key : nonces = (l.map (·.seq)).map (beBytes 8) := by
    simp only [nonces]
    rw [he, List.map_map, List.map_map]; rfl
  have hp : (l.map (·.seq)).Pairwise (· < ·) := by
    rw [List.pairwise_map]; exact hac.1.sublist hl
  have hb : ∀ s ∈ l.map (·.seq), s < 2 ^ 64 := by
    intro s hs
    obtain ⟨x, hx, rfl⟩ := List.mem_map.1 hs
    have := (hac.2 x (hl.subset hx)).2
    omega
  refine ⟨?_, l.map (·.seq), hp, hb, key⟩
  rw [key, List.Nodup, List.pairwise_map]
  refine List.Pairwise.imp_of_mem ?_ hp
  intro a b ha hb' hlt heq
  have := beBytes_inj (k := 8) (hb a ha) (hb b hb') heq
  omega

theorem incoming_seq (h : RlHistory) (m : Nat) :
    (incoming m h).map (·.seq) = List.range' m (incoming m h).length := by
  induction h generalizing m with
  | nil => rfl
  | cons x h ih =>
    obtain ⟨c, res⟩ := x
    cases c <;> cases res <;> first | exact ih m | skip
    simp only [incoming, List.map_cons, List.length_cons, List.range'_succ, ih]

theorem accepted_seq (h : RlHistory) (n : Nat) (hl : ∀ x ∈ h, lossless x = true) :
    (accepted n h).map (·.seq) = List.range' n (accepted n h).length := by
  induction h generalizing n with
  | nil => rfl
  | cons x h ih =>
    have h2 := fun n => ih n fun y hy => hl y (List.mem_cons_of_mem _ hy)
    have h1 := hl x (by simp)
    obtain ⟨c, res⟩ := x
    cases c <;> cases res <;> first | exact h2 n | skip
    · simp only [accepted, List.map_cons, List.length_cons, List.range'_succ, h2]
    · rename_i e
      cases e <;> first | exact h2 n | skip
      simp [lossless] at h1

/-- **C27** The records in the committed transcript carry strictly increasing sequence numbers, the sent
ones with the number as nonce; if nothing failed the numbers are 0, 1, 2, ... without gaps. -/
theorem C27_committed_sequence (k : SessionFns) (peer : Nat → Bytes) (role : Role) (otp : Bytes)
    (sentRecords recvRecords sentLen recvLenOnline recvLen : Nat) (calls : List RlCall)
    (hc : calls.length ≤ 2 ^ 64) (env : FlushEnv) (r' : RecordLayer) (sent recv : List Record) :
    let r := RecordLayer.online role otp sentRecords recvRecords sentLen recvLenOnline recvLen
    (r.run k peer calls).1.commit k env = (r', .ok (sent, recv)) →
    (sent.map (·.seq)).Pairwise (· < ·) ∧ (recv.map (·.seq)).Pairwise (· < ·) ∧
    (∀ x ∈ sent, x.nonce = beBytes 8 x.seq) ∧
    ((∀ x ∈ r.history k peer calls, lossless x = true) →
      sent.map (·.seq) = List.range sent.length ∧ recv.map (·.seq) = List.range recv.length) := by
  intro r hcm
  obtain ⟨h1, h2, h3⟩ := C29_commit k peer role otp sentRecords recvRecords sentLen recvLenOnline recvLen calls
    hc env r' sent recv hcm
  have hac := accepted_seq_lt (r.history k peer calls) 0
  obtain ⟨l, hl, rfl⟩ := List.sublist_map_iff.1 h1
  obtain ⟨l', hl', rfl⟩ := List.sublist_map_iff.1 h2
  have hin := incoming_seq (r.history k peer calls) 0
  refine ⟨?_, ?_, ?_, fun hll => ?_⟩
  · rw [List.map_map, List.pairwise_map]; exact hac.1.sublist hl
  · rw [List.map_map, List.pairwise_map]
    have : ((incoming 0 (r.history k peer calls)).map (·.seq)).Pairwise (· < ·) := by
      rw [hin]; exact List.pairwise_lt_range' (s := 0)
    rw [List.pairwise_map] at this
    exact this.sublist hl'
  · intro x hx
    obtain ⟨s, -, rfl⟩ := List.mem_map.1 hx
    rfl
  · obtain ⟨e1, e2⟩ := h3 hll
    rw [e1, e2, List.map_map, List.map_map, List.length_map, List.length_map, List.range_eq_range',
      List.range_eq_range']
    exact ⟨accepted_seq _ 0 hll, hin⟩

end Tlsn
