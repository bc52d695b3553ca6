import Verif.RecordLayer.AuthProps

/-! # C58: a session within its limits does not fail -/

namespace Tlsn

/-- The number of 16-byte blocks the pushed records need, in each direction. -/
def sendBlocks : List RlCall → Nat
  | [] => 0
  | .pushEncrypt _ _ l _ :: cs => divCeil16 l + sendBlocks cs
  | _ :: cs => sendBlocks cs

def recvBlocks : List RlCall → Nat
  | [] => 0
  | .pushDecrypt _ _ _ ct _ :: cs => divCeil16 ct.length + recvBlocks cs
  | _ :: cs => recvBlocks cs

/-- The number of pushed records, in each direction. -/
def sendCount : List RlCall → Nat
  | [] => 0
  | .pushEncrypt .. :: cs => 1 + sendCount cs
  | _ :: cs => sendCount cs

def recvCount : List RlCall → Nat
  | [] => 0
  | .pushDecrypt .. :: cs => 1 + recvCount cs
  | _ :: cs => recvCount cs

/-- A call an honest party makes: records are not empty and not longer than a TLS fragment, the plaintext
fits and is there unless the record is application data, nonces have eight bytes; flushes meet free locks
and an honest peer.  `commit` is not among the calls. -/
def HonestCall : RlCall → Prop
  | .pushEncrypt t _ l p => 0 < l ∧ l ≤ 2 ^ 14 ∧ (∀ q, p = some q → q.length = l) ∧
      (p = none → t = .applicationData)
  | .pushDecrypt _ _ nc ct _ => nc.length = 8 ∧ 0 < ct.length ∧ ct.length ≤ 2 ^ 14
  | .flush env _ => env = goodEnv
  | .commit _ => False
  | _ => True

/-- At most 1022 records are pushed before each flush that also decrypts; `n` were already pushed. -/
def BurstsFit : Nat → List RlCall → Prop
  | _, [] => True
  | _, .flush _ true :: cs => BurstsFit 0 cs
  | n, .pushEncrypt .. :: cs => n < 1022 ∧ BurstsFit (n + 1) cs
  | n, .pushDecrypt .. :: cs => n < 1022 ∧ BurstsFit (n + 1) cs
  | n, _ :: cs => BurstsFit n cs

/-- At least `b` blocks of keystream and input and `j` counter blocks for tags are left. -/
def Has (a : Aead) (b j : Nat) : Prop :=
  16 * b ≤ a.input ∧ b ≤ a.keystream.blocks.length ∧ j ≤ a.j0s.length

theorem Has.mono {a : Aead} {b j b' j' : Nat} (h : Has a b j) (hb : b' ≤ b) (hj : j' ≤ j) : Has a b' j' :=
  ⟨by have := h.1; omega, by have := h.2.1; omega, by have := h.2.2; omega⟩

theorem consume_some {ks : Keystream} {len : Nat} (h : divCeil16 len ≤ ks.blocks.length) :
    ∃ rest got, ks.consume len = some (rest, got) ∧ got.blocks.length = divCeil16 len ∧
      rest.blocks.length = ks.blocks.length - divCeil16 len := by
  refine ⟨_, _, by simp only [Keystream.consume]; rw [if_neg (by omega)], ?_, ?_⟩
  · simp only [List.length_drop]; omega
  · simp only [List.length_take]; omega

theorem applyKeystream_has {a : Aead} {nonce : Bytes} {len b j : Nat} (hn : nonce.length = 8) (h0 : 0 < len)
    (hl : len ≤ 2 ^ 14) (h : Has a (divCeil16 len + b) j) :
    ∃ a1, a.applyKeystream nonce len = (a1, .ok ()) ∧ Has a1 b j := by
  have hc : 0 < divCeil16 len ∧ divCeil16 len ≤ 2 ^ 11 := by simp only [divCeil16]; omega
  have hp : divCeil16 len * 16 % 2 ^ 64 = divCeil16 len * 16 := Nat.mod_eq_of_lt (by omega)
  have hd : divCeil16 (divCeil16 len * 16) = divCeil16 len := by
    generalize divCeil16 len = c; simp only [divCeil16]; omega
  obtain ⟨h1, h2, h3⟩ := h
  obtain ⟨rest, got, hg, hgl, hrl⟩ := consume_some (ks := a.keystream) (len := divCeil16 len * 16)
    (by rw [hd]; omega)
  rw [hd] at hgl hrl
  have hne : got.blocks.isEmpty = false := by
    cases hb : got.blocks with
    | nil => rw [hb] at hgl; simp at hgl; omega
    | cons => rfl
  simp only [Aead.applyKeystream, hp, hg, hne]
  rw [if_neg (by simp [hn]), if_neg (by omega)]
  exact ⟨_, rfl, by simp only; omega, by simp only; omega, h3⟩

theorem takeKeystream_has {a : Aead} {nonce : Bytes} {len b j : Nat} (hn : nonce.length = 8) (h0 : 0 < len)
    (hl : len ≤ 2 ^ 14) (h : Has a (divCeil16 len + b) j) :
    ∃ a1, a.takeKeystream nonce len = (a1, .ok ()) ∧ Has a1 b j := by
  have hc : 0 < divCeil16 len ∧ divCeil16 len ≤ 2 ^ 11 := by simp only [divCeil16]; omega
  have hp : divCeil16 len * 16 % 2 ^ 64 = divCeil16 len * 16 := Nat.mod_eq_of_lt (by omega)
  obtain ⟨h1, h2, h3⟩ := h
  obtain ⟨rest, got, hg, hgl, hrl⟩ := consume_some (ks := a.keystream) (len := len) (by omega)
  simp only [Aead.takeKeystream, hp, hg]
  rw [if_neg (by simp [hn]), if_neg (by omega), if_neg (by omega)]
  exact ⟨_, rfl, by simp only; omega, by simp only; omega, h3⟩

theorem takeJ0s_has (ns : List Bytes) {a : Aead} {b j : Nat} (hn : ∀ n ∈ ns, n.length = 8)
    (h : Has a b (ns.length + j)) : ∃ a1, a.takeJ0s ns = (a1, .ok ()) ∧ Has a1 b j := by
  induction ns generalizing a with
  | nil => exact ⟨a, rfl, by simpa using h⟩
  | cons n ns ih =>
    simp only [List.length_cons] at h
    have h8 := hn n (by simp)
    obtain ⟨h1, h2, h3⟩ := h
    have hne : a.j0s ≠ [] := by rintro hz; rw [hz] at h3; simp at h3
    have ht : a.takeJ0 n =
        ({ a with j0s := a.j0s.dropLast, assigned := a.assigned ++ [(a.j0s.getLast hne, n, 1)] }, .ok ()) := by
      simp only [Aead.takeJ0]
      rw [if_neg (by simp [h8]), List.getLast?_eq_some_getLast hne]
    simp only [Aead.takeJ0s, ht]
    exact ih (fun m hm => hn m (by simp [hm])) ⟨h1, h2, by simp only [List.length_dropLast]; omega⟩

theorem tags_has (ns : List Bytes) {a : Aead} {b j : Nat} (hn : ∀ n ∈ ns, n.length = 8)
    (h : Has a b (ns.length + j)) : ∃ a1, a.tags ns = (a1, .ok ()) ∧ Has a1 b j := by
  simp only [Aead.tags]
  rw [if_neg (by have := h.2.2; omega)]
  exact takeJ0s_has ns hn h

/-- Sizes of an operation that can be processed. -/
def EncryptOp.Fits (op : EncryptOp) : Prop := 0 < op.len ∧ op.len ≤ 2 ^ 14
def DecryptOp.Fits (op : DecryptOp) : Prop :=
  op.nonce.length = 8 ∧ 0 < op.ciphertext.length ∧ op.ciphertext.length ≤ 2 ^ 14

def eBlocks (ops : List EncryptOp) : Nat := (ops.map fun op => divCeil16 op.len).sum
def dBlocks (ops : List DecryptOp) : Nat := (ops.map fun op => divCeil16 op.ciphertext.length).sum
def dBytes (ops : List DecryptOp) : Nat := (ops.map (·.ciphertext.length)).sum

theorem encryptOps_has (ops : List EncryptOp) {a : Aead} {b j : Nat}
    (hw : ∀ op ∈ ops, op.Wf ∧ op.Fits) (h : Has a (eBlocks ops + b) j) :
    ∃ a1, a.encryptOps ops = (a1, .ok ()) ∧ Has a1 b j := by
  induction ops generalizing a with
  | nil => exact ⟨a, rfl, by simpa [eBlocks] using h⟩
  | cons op ops ih =>
    obtain ⟨wf, hf⟩ := hw op (by simp)
    have hn : op.nonce.length = 8 := by rw [wf.nonce]; simp
    have h' : Has a (divCeil16 op.len + (eBlocks ops + b)) j := by
      refine h.mono ?_ (Nat.le_refl _)
      simp only [eBlocks, List.map_cons, List.sum_cons]; omega
    have : ∃ a1, a.encryptOp op = (a1, .ok ()) ∧ Has a1 (eBlocks ops + b) j := by
      simp only [Aead.encryptOp, wf.mode, modeOf]
      by_cases ht : op.typ = .applicationData
      · simp only [ht, if_true]
        exact applyKeystream_has hn hf.1 hf.2 h'
      · simp only [ht, if_false, wf.pub ht]
        exact takeKeystream_has hn hf.1 hf.2 h'
    obtain ⟨a1, he, h1⟩ := this
    simp only [Aead.encryptOps, he]
    exact ih (fun o ho => hw o (by simp [ho])) h1

theorem encryptAll_has (ops : List EncryptOp) {a : Aead} {b j : Nat}
    (hw : ∀ op ∈ ops, op.Wf ∧ op.Fits) (h : Has a (eBlocks ops + b) (ops.length + j)) :
    ∃ a1, a.encryptAll ops = (a1, .ok ()) ∧ Has a1 b j := by
  obtain ⟨a1, h1, h2⟩ := encryptOps_has ops hw h
  simp only [Aead.encryptAll, h1]
  refine tags_has _ ?_ (by simpa using h2)
  intro n hn
  obtain ⟨op, ho, rfl⟩ := List.mem_map.1 hn
  rw [(hw op ho).1.nonce]; simp

/-- At least `n` bytes of the pad are left, for the party that has one. -/
def HasOtp (otp : Option Bytes) (n : Nat) : Prop := ∀ o, otp = some o → n ≤ o.length

theorem decryptMpc_has {f : AeadFn} (ops : List DecryptOp) {a : Aead} {b j n : Nat} {otp : Option Bytes}
    (hw : ∀ op ∈ ops, op.Wf ∧ op.Fits) (h : Has a (dBlocks ops + b) j) (ho : HasOtp otp (dBytes ops + n)) :
    ∃ a1 otp1 ps, decryptMpc f a otp ops = (a1, otp1, .ok ps) ∧ Has a1 b j ∧ HasOtp otp1 n := by
  induction ops generalizing a otp with
  | nil => exact ⟨a, otp, [], rfl, by simpa [dBlocks] using h, by simpa [dBytes] using ho⟩
  | cons op ops ih =>
    obtain ⟨wf, hf⟩ := hw op (by simp)
    have h' : Has a (divCeil16 op.ciphertext.length + (dBlocks ops + b)) j := by
      refine h.mono ?_ (Nat.le_refl _)
      simp only [dBlocks, List.map_cons, List.sum_cons]; omega
    have hd : dBytes (op :: ops) = op.ciphertext.length + dBytes ops := by simp [dBytes]
    rw [hd] at ho
    have : ∃ a1 otp1 p, decryptOpMpc f a otp op = (a1, otp1, .ok p) ∧ Has a1 (dBlocks ops + b) j ∧
        HasOtp otp1 (dBytes ops + n) := by
      simp only [decryptOpMpc, wf.mode, modeOf]
      by_cases ht : op.typ = .applicationData
      · simp only [ht, if_true]
        obtain ⟨a1, he, h1⟩ := applyKeystream_has hf.1 hf.2.1 hf.2.2 h'
        cases otp with
        | none =>
          simp only [takeOtp, he]
          exact ⟨a1, none, _, rfl, h1, by intro o ho; simp at ho⟩
        | some o =>
          have hle := ho o rfl
          simp only [takeOtp]
          rw [if_neg (by omega)]
          simp only [he]
          refine ⟨a1, _, _, rfl, h1, ?_⟩
          rintro o' ⟨⟩
          rw [List.length_take]; omega
      · simp only [ht, if_false]
        obtain ⟨a1, he, h1⟩ := takeKeystream_has hf.1 hf.2.1 hf.2.2 h'
        simp only [he]
        exact ⟨a1, otp, _, rfl, h1, fun o hoo => by have := ho o hoo; omega⟩
    obtain ⟨a1, otp1, p, he, h1, h2⟩ := this
    obtain ⟨a2, otp2, ps, he2, h3, h4⟩ := ih (fun o ho => hw o (by simp [ho])) h1 h2
    simp only [decryptMpc, he, he2]
    exact ⟨a2, otp2, p :: ps, rfl, h3, h4⟩

theorem padBlocks_length (b : Bytes) : (padBlocks b).length = 16 * blockCount b.length := by
  simp only [padBlocks, List.length_append, List.length_replicate, blockCount]
  split <;> omega

theorem ghashFits_of_le {aad ct : Bytes} (ha : aad.length = 13) (hc : ct.length ≤ 2 ^ 14) :
    ghashFits aad ct = true := by
  have h1 := padBlocks_length aad
  have h2 := padBlocks_length ct
  have hb : blockCount 13 = 1 := rfl
  have hbc : blockCount ct.length ≤ 1024 := by simp only [blockCount]; split <;> omega
  rw [ha, hb] at h1
  have : (buildGhashData aad ct).length = 16 + (16 * blockCount ct.length + 16) := by
    simp only [buildGhashData, List.length_append, h1, h2, beBytes_length]
  simp only [ghashFits, this, decide_eq_true_eq]
  generalize blockCount ct.length = x at hbc
  simp only [blockCount]; split <;> omega

theorem makeTls12Aad_length (seq : Nat) (t : ContentType) (v : ProtocolVersion) (l : Nat) :
    (makeTls12Aad seq t v l).length = 13 := by simp [makeTls12Aad]

theorem eBlocks_nil : eBlocks [] = 0 := rfl

theorem dSums (ops : List DecryptOp) (p : Nat) :
    dBlocks (ops.take p) + dBlocks (ops.drop p) = dBlocks ops ∧
    dBytes (ops.take p) + dBytes (ops.drop p) = dBytes ops ∧
    (ops.take p).length + (ops.drop p).length = ops.length := by
  refine ⟨?_, ?_, ?_⟩
  · simp only [dBlocks]; rw [← List.sum_append, ← List.map_append, List.take_append_drop]
  · simp only [dBytes]; rw [← List.sum_append, ← List.map_append, List.take_append_drop]
  · rw [← List.length_append, List.take_append_drop]

/-- The invariant behind C58: enough is left for what is pending and for `b` blocks, `j` records to send
and `b'` blocks, `j'` records to receive. -/
structure Enough (r : RecordLayer) (b j b' j' : Nat) : Prop where
  st : ∃ otp s c, r.state = .online otp s c ∧ HasOtp otp (dBytes r.decryptBuffer + 16 * b')
  enc : Has r.encrypter (eBlocks r.encryptBuffer + b) (r.encryptBuffer.length + j)
  dec : Has r.decrypter (dBlocks r.decryptBuffer + b') (r.decryptBuffer.length + j')
  eops : ∀ op ∈ r.encryptBuffer, op.Fits
  dops : ∀ op ∈ r.decryptBuffer, op.Fits
  sent : r.sent + 16 * b ≤ r.maxSent
  recv : r.recv + 16 * b' ≤ r.maxRecv
  online : r.recvOnline + dBytes r.decryptBuffer + 16 * b' ≤ r.maxRecvOnline
  small : r.maxSent < 2 ^ 63 ∧ r.maxRecv < 2 ^ 63 ∧ r.maxRecvOnline < 2 ^ 63

theorem enough_flush {k : SessionFns} {peer : Nat → Bytes} {r : RecordLayer} {n m b j b' j' : Nat}
    (hw : r.Wf n m) (h : Enough r b j b' j')
    (ha : ∀ op ∈ r.decryptBuffer, op.toReceiving.Authentic k.server) (d : Bool) :
    ∃ r', r.flush k peer goodEnv d = (r', .ok ()) ∧ Enough r' b j b' j' ∧ r'.encryptBuffer = [] ∧
      r'.decryptBuffer = r.decryptBuffer.drop (r.flushPos d) := by
  obtain ⟨otp, s, c, hs, ho⟩ := h.st
  have hsums := dSums r.decryptBuffer (r.flushPos d)
  have hdw : ∀ op ∈ r.decryptBuffer.take (r.flushPos d), op.Wf ∧ op.Fits := fun op ho =>
    ⟨hw.dops op (List.mem_of_mem_take ho), h.dops op (List.mem_of_mem_take ho)⟩
  obtain ⟨e1, he1, he2⟩ := encryptAll_has r.encryptBuffer
    (fun op ho => ⟨hw.eops op ho, h.eops op ho⟩) h.enc
  obtain ⟨d1, otp1, ps, hd1, hd2, hd3⟩ := decryptMpc_has (f := k.server) (a := r.decrypter) (otp := otp)
    (r.decryptBuffer.take (r.flushPos d)) (b := dBlocks (r.decryptBuffer.drop (r.flushPos d)) + b')
    (j := r.decryptBuffer.length + j') (n := dBytes (r.decryptBuffer.drop (r.flushPos d)) + 16 * b') hdw
    (h.dec.mono (by omega) (Nat.le_refl _)) (fun o hoo => by have := ho o hoo; omega)
  obtain ⟨d2, hd4, hd5⟩ := tags_has ((r.decryptBuffer.take (r.flushPos d)).map (·.nonce)) (a := d1)
    (b := dBlocks (r.decryptBuffer.drop (r.flushPos d)) + b')
    (j := (r.decryptBuffer.drop (r.flushPos d)).length + j')
    (by
      intro x hx
      obtain ⟨op, ho, rfl⟩ := List.mem_map.1 hx
      exact (hdw op ho).2.1)
    (hd2.mono (Nat.le_refl _) (by rw [List.length_map]; omega))
  have hv : verifyTagsRun k.server r.role (r.decryptBuffer.take (r.flushPos d)) = true := by
    simp only [verifyTagsRun, List.all_eq_true, Bool.and_eq_true, Bool.or_eq_true, decide_eq_true_eq]
    intro op ho
    have h1 := hdw op ho
    refine ⟨ghashFits_of_le (by rw [h1.1.aad]; exact makeTls12Aad_length _ _ _ _) h1.2.2.2, .inr ?_⟩
    rw [h1.1.aad]
    exact ha op (List.mem_of_mem_take ho)
  have hc : computeTagsRun k.client peer r.encryptBuffer = true := by
    simp only [computeTagsRun, List.all_eq_true]
    intro op ho
    refine ghashFits_of_le (by rw [(hw.eops op ho).aad]; exact makeTls12Aad_length _ _ _ _) ?_
    have := (h.eops op ho).2
    simp only [EncryptOp.cipher, xorBytes_length, keystream_length]
    omega
  have hpos : (if d = true then r.decryptBuffer.length else firstAppData r.decryptBuffer) = r.flushPos d := rfl
  simp only [RecordLayer.flush, hs, hpos, goodEnv, Bool.not_true, Bool.false_eq_true, if_false]
  have hon := h.online
  have hsm := h.small
  have hrv := h.recv
  by_cases hemp : (r.encryptBuffer.isEmpty && (r.decryptBuffer.take (r.flushPos d)).isEmpty) = true
  · rw [if_pos hemp]
    simp only [Bool.and_eq_true, List.isEmpty_iff] at hemp
    have hdrop : r.decryptBuffer.drop (r.flushPos d) = r.decryptBuffer := by
      have := List.take_append_drop (r.flushPos d) r.decryptBuffer
      rw [hemp.2, List.nil_append] at this; exact this
    refine ⟨_, rfl, ⟨⟨otp, s, c, rfl, by simp only [hdrop]; exact ho⟩, ?_, ?_, by simp, ?_, h.sent, h.recv, ?_,
      h.small⟩, rfl, rfl⟩
    · have := h.enc; rw [hemp.1] at this; exact this
    · simp only [hdrop]; exact h.dec
    · simp only [hdrop]; exact h.dops
    · simp only [hdrop]; exact h.online
  · rw [if_neg hemp]
    have hadd : usizeAdd r.recvOnline (dBytes (r.decryptBuffer.take (r.flushPos d))) =
        r.recvOnline + dBytes (r.decryptBuffer.take (r.flushPos d)) := usizeAdd_small (by omega) (by omega)
    have hlim : ¬ ((d && decide (usizeAdd r.recvOnline (dBytes (r.decryptBuffer.take (r.flushPos d))) >
        r.maxRecvOnline)) = true) := by
      rw [hadd]
      simp only [Bool.and_eq_true, decide_eq_true_eq, not_and]
      intro _; omega
    change ∃ r', (if (d && decide (usizeAdd r.recvOnline (dBytes (r.decryptBuffer.take (r.flushPos d))) >
      r.maxRecvOnline)) = true then _ else RecordLayer.flushRun k peer _ (if d = true then
        { r with encryptBuffer := [], decryptBuffer := r.decryptBuffer.drop (r.flushPos d),
                 recvOnline := usizeAdd r.recvOnline (dBytes (r.decryptBuffer.take (r.flushPos d))),
                 state := .online otp s c }
        else { r with encryptBuffer := [], decryptBuffer := r.decryptBuffer.drop (r.flushPos d),
                      state := .online otp s c }) otp s c _ _) = _ ∧ _
    rw [if_neg hlim, hadd]
    have h2 : ∃ ro', ro' ≤ r.recvOnline + dBytes (r.decryptBuffer.take (r.flushPos d)) ∧ (if d = true then
        { r with encryptBuffer := [], decryptBuffer := r.decryptBuffer.drop (r.flushPos d),
                 recvOnline := r.recvOnline + dBytes (r.decryptBuffer.take (r.flushPos d)),
                 state := .online otp s c }
        else { r with encryptBuffer := [], decryptBuffer := r.decryptBuffer.drop (r.flushPos d),
                      state := .online otp s c }) =
        { r with encryptBuffer := [], decryptBuffer := r.decryptBuffer.drop (r.flushPos d),
                 recvOnline := ro', state := .online otp s c } := by
      cases d
      · exact ⟨r.recvOnline, by omega, rfl⟩
      · exact ⟨_, Nat.le_refl _, rfl⟩
    obtain ⟨ro', hro, hro'⟩ := h2
    rw [hro']
    simp only [RecordLayer.flushRun, he1, hd1, hd4, hv, hc, Bool.not_true, Bool.false_eq_true, if_false]
    refine ⟨_, rfl, ⟨⟨otp1, _, _, rfl, hd3⟩, ?_, ?_, by simp, ?_, h.sent, h.recv, ?_, h.small⟩, rfl, rfl⟩
    · exact he2.mono (by simp [eBlocks]) (by simp)
    · exact hd5
    · intro op ho; exact h.dops op (List.mem_of_mem_drop ho)
    · change ro' + dBytes (r.decryptBuffer.drop (r.flushPos d)) + 16 * b' ≤ r.maxRecvOnline
      omega

theorem Enough.frame {r r' : RecordLayer} {b j b' j' : Nat} (h : Enough r b j b' j')
    (h0 : r'.state = r.state) (h1 : r'.sent = r.sent) (h2 : r'.maxSent = r.maxSent) (h3 : r'.recv = r.recv)
    (h4 : r'.maxRecv = r.maxRecv) (h5 : r'.decryptBuffer = r.decryptBuffer)
    (h6 : r'.encryptBuffer = r.encryptBuffer) (h7 : r'.recvOnline = r.recvOnline)
    (h8 : r'.maxRecvOnline = r.maxRecvOnline) (h9 : r'.encrypter = r.encrypter)
    (h10 : r'.decrypter = r.decrypter) : Enough r' b j b' j' := by
  refine ⟨?_, ?_, ?_, ?_, ?_, ?_, ?_, ?_, ?_⟩
  · rw [h0, h5]; exact h.st
  · rw [h9, h6]; exact h.enc
  · rw [h10, h5]; exact h.dec
  · rw [h6]; exact h.eops
  · rw [h5]; exact h.dops
  · rw [h1, h2]; exact h.sent
  · rw [h3, h4]; exact h.recv
  · rw [h5, h7, h8]; exact h.online
  · rw [h2, h4, h8]; exact h.small

theorem Enough.mono {r : RecordLayer} {b j b' j' c i c' i' : Nat} (h : Enough r b j b' j')
    (h1 : c ≤ b) (h2 : i ≤ j) (h3 : c' ≤ b') (h4 : i' ≤ j') : Enough r c i c' i' := by
  obtain ⟨otp, s, cc, hs, ho⟩ := h.st
  refine ⟨⟨otp, s, cc, hs, fun o hoo => ?_⟩, h.enc.mono ?_ ?_, h.dec.mono ?_ ?_, h.eops, h.dops, ?_, ?_, ?_, h.small⟩
  · have := ho o hoo; omega
  · omega
  · omega
  · omega
  · omega
  · have := h.sent; omega
  · have := h.recv; omega
  · have := h.online; omega

theorem enough_push {k : SessionFns} {peer : Nat → Bytes} {r : RecordLayer} {b j b' j' : Nat}
    (t : ContentType) (v : ProtocolVersion) (l : Nat) (p : Option Bytes)
    (h : Enough r (divCeil16 l + b) (1 + j) b' j') (hb : r.encryptBuffer.length < 1022)
    (hc : HonestCall (.pushEncrypt t v l p)) :
    (r.step k peer (.pushEncrypt t v l p)).2 = .done ∧ Enough (r.step k peer (.pushEncrypt t v l p)).1 b j b' j' ∧
    (r.step k peer (.pushEncrypt t v l p)).1.encryptBuffer.length = r.encryptBuffer.length + 1 ∧
    (r.step k peer (.pushEncrypt t v l p)).1.decryptBuffer = r.decryptBuffer := by
  obtain ⟨h0, hl, hp, hn⟩ := hc
  have hsent := h.sent
  have hsm := h.small
  have hle := divCeil16_le l
  have hadd : usizeAdd r.sent l = r.sent + l := usizeAdd_small (by omega) (by omega)
  have hmb : maxBufferSize = 1022 := rfl
  have hany : ¬ ((p.any fun p => decide (p.length ≠ l)) = true) := by
    cases p with
    | none => simp
    | some q => simp [hp q rfl]
  have hpub : ¬ (modeOf t = .pub ∧ p = none) := by
    rintro ⟨h1, h2⟩
    simp [modeOf, hn h2] at h1
  simp only [RecordLayer.step, RecordLayer.pushEncrypt, hmb, EncryptOp.new]
  rw [if_neg (by omega), if_neg (by omega), if_neg hany, if_neg hpub]
  refine ⟨rfl, ⟨h.st, ?_, h.dec, ?_, h.dops, ?_, h.recv, h.online, h.small⟩, by simp, rfl⟩
  · refine h.enc.mono ?_ ?_
    · simp only [eBlocks, List.map_append, List.sum_append, List.map_cons, List.map_nil, List.sum_cons,
        List.sum_nil]; omega
    · simp only [List.length_append, List.length_cons, List.length_nil]; omega
  · intro op ho
    rcases List.mem_append.1 ho with ho | ho
    · exact h.eops op ho
    · simp only [List.mem_singleton] at ho
      subst ho
      exact ⟨h0, hl⟩
  · change usizeAdd r.sent l + 16 * b ≤ r.maxSent
    omega

theorem enough_pushD {k : SessionFns} {peer : Nat → Bytes} {r : RecordLayer} {b j b' j' : Nat}
    (t : ContentType) (v : ProtocolVersion) (nc ct tg : Bytes)
    (h : Enough r b j (divCeil16 ct.length + b') (1 + j')) (hb : r.decryptBuffer.length < 1022)
    (hc : HonestCall (.pushDecrypt t v nc ct tg)) :
    (r.step k peer (.pushDecrypt t v nc ct tg)).2 = .done ∧
    Enough (r.step k peer (.pushDecrypt t v nc ct tg)).1 b j b' j' ∧
    (r.step k peer (.pushDecrypt t v nc ct tg)).1.encryptBuffer = r.encryptBuffer ∧
    (r.step k peer (.pushDecrypt t v nc ct tg)).1.decryptBuffer = r.decryptBuffer ++
      [⟨r.readSeq, t, v, nc, ct, makeTls12Aad r.readSeq t v ct.length, tg, modeOf t⟩] := by
  obtain ⟨h8, h0, hl⟩ := hc
  have hrecv := h.recv
  have hsm := h.small
  have hle := divCeil16_le ct.length
  have hadd : usizeAdd r.recv ct.length = r.recv + ct.length := usizeAdd_small (by omega) (by omega)
  have hmb : maxBufferSize = 1022 := rfl
  obtain ⟨otp, s, cc, hs, ho⟩ := h.st
  have hby : ∀ op : DecryptOp, dBytes (r.decryptBuffer ++ [op]) = dBytes r.decryptBuffer + op.ciphertext.length := by
    intro op; simp [dBytes]
  simp only [RecordLayer.step, RecordLayer.pushDecrypt, hmb]
  rw [if_neg (by omega), if_neg (by omega)]
  refine ⟨rfl, ⟨⟨otp, s, cc, hs, ?_⟩, h.enc, ?_, h.eops, ?_, h.sent, ?_, ?_, h.small⟩, rfl, rfl⟩
  · intro o hoo
    have := ho o hoo
    simp only [hby]; omega
  · refine h.dec.mono ?_ ?_
    · simp only [dBlocks, List.map_append, List.sum_append, List.map_cons, List.map_nil, List.sum_cons,
        List.sum_nil]; omega
    · simp only [List.length_append, List.length_cons, List.length_nil]; omega
  · intro op ho
    rcases List.mem_append.1 ho with ho | ho
    · exact h.dops op ho
    · simp only [List.mem_singleton] at ho
      subst ho
      exact ⟨h8, h0, hl⟩
  · change usizeAdd r.recv ct.length + 16 * b' ≤ r.maxRecv
    omega
  · have := h.online
    simp only [hby]; omega

/-- A result that is not a failure. -/
def RlResult.isGood : RlResult → Bool
  | .failed _ => false
  | .panicked => false
  | _ => true

theorem enough_run {k : SessionFns} {peer : Nat → Bytes} (cs : List RlCall) {r : RecordLayer} {n m q : Nat}
    (hw : r.Wf n m) (hn : n + cs.length ≤ 2 ^ 64) (hm : m + cs.length ≤ 2 ^ 64)
    (h : Enough r (sendBlocks cs) (sendCount cs) (recvBlocks cs) (recvCount cs))
    (hc : ∀ c ∈ cs, HonestCall c) (hb : BurstsFit q cs) (hq : r.encryptBuffer.length ≤ q)
    (hq' : r.decryptBuffer.length ≤ q)
    (ha : ∀ op ∈ r.decryptBuffer, op.toReceiving.Authentic k.server)
    (hi : ∀ s ∈ incoming m (r.history k peer cs), s.Authentic k.server) :
    ∀ x ∈ r.history k peer cs, x.2.isGood = true := by
  induction cs generalizing r n m q with
  | nil => simp [RecordLayer.history]
  | cons c cs ih =>
    simp only [List.length_cons] at hn hm
    have hs := step_ok (k := k) (peer := peer) hw (by omega) (by omega) c
    have hle := nextW_le n (c, (r.step k peer c).2)
    have hle' := nextR_le m (c, (r.step k peer c).2)
    have hc1 := hc c (by simp)
    have hc2 : ∀ c ∈ cs, HonestCall c := fun c hc' => hc c (List.mem_cons_of_mem _ hc')
    rw [history_cons] at hi ⊢
    rw [incoming_cons] at hi
    have hi1 := fun s hs => hi s (List.mem_append_left _ hs)
    have hi2 := fun s hs => hi s (List.mem_append_right _ hs)
    have fin : ∀ q', Enough (r.step k peer c).1 (sendBlocks cs) (sendCount cs) (recvBlocks cs) (recvCount cs) →
        BurstsFit q' cs → (r.step k peer c).1.encryptBuffer.length ≤ q' →
        (r.step k peer c).1.decryptBuffer.length ≤ q' →
        (∀ op ∈ (r.step k peer c).1.decryptBuffer, op.toReceiving.Authentic k.server) →
        (r.step k peer c).2.isGood = true →
        ∀ x ∈ (c, (r.step k peer c).2) :: (r.step k peer c).1.history k peer cs, x.2.isGood = true := by
      intro q' he hb' h1 h2 h3 hg x hx
      rcases List.mem_cons.1 hx with rfl | hx
      · exact hg
      · exact ih hs.wf (by omega) (by omega) he hc2 hb' h1 h2 h3 hi2 x hx
    cases c with
    | commit env => exact absurd hc1 (by simp [HonestCall])
    | startTraffic => exact fin q (h.frame rfl rfl rfl rfl rfl rfl rfl rfl rfl rfl rfl) hb hq hq' ha rfl
    | nextEncrypted =>
      have hfr : ∃ e, (r.step k peer .nextEncrypted).1 = { r with encryptedBuffer := e } ∧
          (r.step k peer .nextEncrypted).2.isGood = true := by
        simp only [RecordLayer.step, RecordLayer.nextEncrypted]
        repeat' split
        · exact ⟨r.encryptedBuffer, rfl, rfl⟩
        · exact ⟨r.encryptedBuffer, rfl, rfl⟩
        · exact ⟨_, rfl, rfl⟩
      obtain ⟨e, he, hg⟩ := hfr
      refine fin q ?_ hb ?_ ?_ ?_ hg
      · rw [he]; exact h.frame rfl rfl rfl rfl rfl rfl rfl rfl rfl rfl rfl
      · rw [he]; exact hq
      · rw [he]; exact hq'
      · rw [he]; exact ha
    | nextDecrypted =>
      have hfr : ∃ e, (r.step k peer .nextDecrypted).1 = { r with decryptedBuffer := e } ∧
          (r.step k peer .nextDecrypted).2.isGood = true := by
        simp only [RecordLayer.step, RecordLayer.nextDecrypted]
        repeat' split
        · exact ⟨r.decryptedBuffer, rfl, rfl⟩
        · exact ⟨r.decryptedBuffer, rfl, rfl⟩
        · exact ⟨_, rfl, rfl⟩
      obtain ⟨e, he, hg⟩ := hfr
      refine fin q ?_ hb ?_ ?_ ?_ hg
      · rw [he]; exact h.frame rfl rfl rfl rfl rfl rfl rfl rfl rfl rfl rfl
      · rw [he]; exact hq
      · rw [he]; exact hq'
      · rw [he]; exact ha
    | pushEncrypt t v l p =>
      obtain ⟨hb1, hb2⟩ := hb
      obtain ⟨p1, p2, p3, p4⟩ := enough_push (k := k) (peer := peer) t v l p h (by omega) hc1
      refine fin (q + 1) p2 hb2 (by omega) (by rw [p4]; omega) ?_ (by rw [p1]; rfl)
      rw [p4]; exact ha
    | pushDecrypt t v nc ct tg =>
      obtain ⟨hb1, hb2⟩ := hb
      obtain ⟨p1, p2, p3, p4⟩ := enough_pushD (k := k) (peer := peer) t v nc ct tg h (by omega) hc1
      refine fin (q + 1) p2 hb2 (by rw [p3]; omega) (by rw [p4]; simp; omega) ?_ (by rw [p1]; rfl)
      rw [p4]
      intro op ho
      rcases List.mem_append.1 ho with ho | ho
      · exact ha op ho
      · simp only [List.mem_singleton] at ho
        subst ho
        refine hi1 _ ?_
        have hseq : r.readSeq = m := by rw [hw.read]; exact Nat.mod_eq_of_lt (by omega)
        rw [p1]
        simp [incoming, DecryptOp.toReceiving, hseq]
    | flush env d =>
      simp only [HonestCall] at hc1
      subst hc1
      obtain ⟨r', hf, he, hb1, hb2⟩ := enough_flush (k := k) (peer := peer) hw h ha d
      have hst : r.step k peer (.flush goodEnv d) = (r', .done) := by
        simp only [RecordLayer.step, hf, RlResult.ofExcept]
      rw [hst] at fin ⊢
      cases d with
      | true =>
        refine fin 0 he hb (by rw [hb1]; simp) ?_ ?_ rfl
        · rw [hb2]; simp [RecordLayer.flushPos]
        · rw [hb2]; intro op ho; exact ha op (List.mem_of_mem_drop ho)
      | false =>
        refine fin q he hb (by rw [hb1]; simp) ?_ ?_ rfl
        · rw [hb2, List.length_drop]; omega
        · rw [hb2]; intro op ho; exact ha op (List.mem_of_mem_drop ho)

/-- **C58** If the parties make the calls of an honest session, the received records are authentic, the
records fit the allocated numbers of records and of bytes when every record is counted in whole blocks of
16 bytes, and at most 1022 records are pushed before each decrypting flush, then no call fails. -/
theorem C58_within_limits (k : SessionFns) (peer : Nat → Bytes) (role : Role) (otp : Bytes)
    (sentRecords recvRecords sentLen recvLenOnline recvLen : Nat) (calls : List RlCall)
    (hlen : calls.length ≤ 2 ^ 64) (hc : ∀ c ∈ calls, HonestCall c) (hb : BurstsFit 0 calls)
    (hs : 16 * sendBlocks calls ≤ sentLen ∧ sendCount calls ≤ sentRecords)
    (hr : 16 * recvBlocks calls ≤ recvLenOnline ∧ 16 * recvBlocks calls ≤ recvLen ∧
      recvCount calls ≤ recvRecords)
    (hsm : sentLen < 2 ^ 63 ∧ recvLen < 2 ^ 63 ∧ recvLenOnline < 2 ^ 63)
    (hotp : role = .leader → otp.length = recvLenOnline) :
    let r := RecordLayer.online role otp sentRecords recvRecords sentLen recvLenOnline recvLen
    let h := r.history k peer calls
    (∀ s ∈ incoming 0 h, s.Authentic k.server) → ∀ x ∈ h, x.2.isGood = true := by
  intro r h hau
  have h1 := divCeil16_le sentLen
  have h2 := divCeil16_le recvLenOnline
  refine enough_run (k := k) (peer := peer) calls (online_wf role otp sentRecords recvRecords sentLen
    recvLenOnline recvLen) (by omega) (by omega) ?_ hc hb (Nat.le_refl 0)
    (Nat.le_refl 0) (fun op ho => absurd ho List.not_mem_nil) hau
  refine ⟨⟨_, _, _, rfl, ?_⟩, ?_, ?_, (fun op ho => absurd ho List.not_mem_nil), (fun op ho => absurd ho List.not_mem_nil), ?_, ?_, ?_,
    hsm⟩
  · intro o ho
    have : role = .leader ∧ otp = o := by
      cases role <;> simp at ho ⊢
      exact ho
    change 0 + 16 * recvBlocks calls ≤ o.length
    rw [← this.2, hotp this.1]; omega
  · refine ⟨?_, ?_, ?_⟩
    · change 16 * (0 + sendBlocks calls) ≤ 16 * divCeil16 sentLen; omega
    · change 0 + sendBlocks calls ≤ (List.map _ (List.range (divCeil16 sentLen))).length
      rw [List.length_map, List.length_range]; omega
    · change 0 + sendCount calls ≤ (List.range sentRecords).length
      rw [List.length_range]; omega
  · refine ⟨?_, ?_, ?_⟩
    · change 16 * (0 + recvBlocks calls) ≤ 16 * divCeil16 recvLenOnline; omega
    · change 0 + recvBlocks calls ≤ (List.map _ (List.range (divCeil16 recvLenOnline))).length
      rw [List.length_map, List.length_range]; omega
    · change 0 + recvCount calls ≤ (List.range recvRecords).length
      rw [List.length_range]; omega
  · change 0 + 16 * sendBlocks calls ≤ sentLen; omega
  · change 0 + 16 * recvBlocks calls ≤ recvLen; omega
  · change 0 + 0 + 16 * recvBlocks calls ≤ recvLenOnline; omega

/-- Example for C58: the hypotheses hold for the history of the examples above. -/
example : (∀ c ∈ demoCalls, HonestCall c) ∧ BurstsFit 0 demoCalls ∧ 16 * sendBlocks demoCalls ≤ 40 ∧
    sendCount demoCalls ≤ 5 ∧ 16 * recvBlocks demoCalls ≤ 40 ∧ recvCount demoCalls ≤ 5 ∧
    ∀ s ∈ incoming 0 ((RecordLayer.online .leader (List.replicate 40 1) 5 5 40 40 80).history demoFns
      (fun _ => []) demoCalls), s.Authentic demoFns.server := by
  refine ⟨?_, ?_, by decide, by decide, by decide, by decide, ?_⟩
  · simp [demoCalls, HonestCall]
  · simp [demoCalls, BurstsFit]
  · have : incoming 0 ((RecordLayer.online .leader (List.replicate 40 1) 5 5 40 40 80).history demoFns
        (fun _ => []) demoCalls) = [⟨0, .handshake, .tls12, beBytes 8 77, [3, 1], List.replicate 16 8⟩,
          ⟨1, .applicationData, .tls12, beBytes 8 78, [5], List.replicate 16 8⟩] := by decide +kernel
    rw [this]
    intro s hs
    simp only [List.mem_cons, List.not_mem_nil, or_false] at hs
    rcases hs with rfl | rfl <;> (simp only [Receiving.Authentic]; decide +kernel)

end Tlsn
