import Verif.Auth.Hash
import Verif.Transcript.Props

/-! # Lemmas about `verify` -/

namespace Tlsn

/-! ## Commit ranges outside of the transcript -/

theorem endD_gt {s : RangeSet} {n : Nat} (h : n < s.endD) : ∃ r ∈ s.ranges, n < r.2 := by
  apply Classical.byContradiction
  intro hn
  have : s.endD ≤ n := RangeSet.endD_le_iff.2 fun i hi => by
    obtain ⟨r, hr, _, h2⟩ := hi
    have : ¬ n < r.2 := fun hlt => hn ⟨r, hr, hlt⟩
    omega
  omega

theorem assignAll_oob (p : Bytes) (m : RangeMap) (vm : ZkVm) (hin : InMem vm (m.map (·.2)))
    (h : ∃ e ∈ m, p.length < e.1 + e.2.len) : assignAll p m vm = .panic := by
  induction m generalizing vm with
  | nil => simp at h
  | cons e t ih =>
    obtain ⟨i, v⟩ := e
    simp only [assignAll]
    by_cases hle : i + v.len ≤ p.length
    · rw [slice_isSome (by omega) hle]
      have hv := hin v (by simp)
      obtain ⟨vm', h1, h2, _⟩ := assign_spec (vm := vm) (v := v) (b := (p.take (i + v.len)).drop i)
        (by simp; omega) hv
      simp only [h1, Outcome.bind_ok]
      refine ih vm' (fun w hw => by rw [h2]; exact hin w (by simp at hw ⊢; exact .inr hw)) ?_
      obtain ⟨e, he, hlt⟩ := h
      rcases List.mem_cons.1 he with rfl | he
      · simp only at hlt; omega
      · exact ⟨e, he, hlt⟩
    · have : slice p i (i + v.len) = none := by
        unfold slice; rw [if_neg (by omega)]
      rw [this]

theorem markAll_InMem {vm : ZkVm} {vis : Vis} {m : RangeMap} {vs : List VmVec} (h : InMem vm vs) :
    InMem (markAll vm vis m) vs := by
  intro v hv; rw [markAll_mem]; exact h v hv

theorem layout_inMem {vm : ZkVm} {a : Nat} {rs : List Rng} (h : a + totalLen rs ≤ vm.mem.length) :
    InMem vm ((layout a rs).map (·.2)) := by
  intro v hv
  obtain ⟨e, he, rfl⟩ := List.mem_map.1 hv
  obtain ⟨r, _, _, _, _, h4⟩ := mem_layout he
  omega

/-- A commit range beyond the transcript: a panic when everything is revealed, an error otherwise. -/
theorem verifyPlaintext_oob (aes : AesFn) (e : Bool) {vm : ZkVm} {key iv : VmVec} {k i p c : Bytes}
    {records : List Record} {reveal : RangeSet} (commit : RangeSet)
    (h : AuthPre vm key iv k i p c records reveal) (hc : p.length < commit.endD) :
    verifyPlaintext aes e vm key iv p c records reveal commit =
      if isRevealAll e reveal p.length then .panic else .err .outOfBounds := by
  have hlen := h.len
  have hcl : ((recordParams records).map (·.len)).sum = c.length := by rw [params_sum, h.cipher]
  have hnonce := params_nonce h.nonces
  simp only [verifyPlaintext, allocPlaintext_eq, Outcome.bind_ok]
  generalize hT : allocRanges e reveal commit p.length = T
  obtain ⟨m, hm1, hm2⟩ := alloc_mem vm T
  generalize hvm1 : (if T.len = 0 then vm else (vm.alloc T.len).1) = vm1 at hm1
  have hg1 : Grew vm vm1 := ⟨m, hm1⟩
  have hl1 : vm.mem.length + T.len ≤ vm1.mem.length := by rw [hm1, List.length_append]; omega
  by_cases hall : isRevealAll e reveal p.length = true
  · rw [if_pos hall, if_pos hall]
    have hTc : T = commit := by rw [← hT]; simp [allocRanges, hall]
    obtain ⟨r, hr, hlt⟩ := endD_gt hc
    rw [← hTc] at hr
    obtain ⟨en, hen, e1, e2⟩ := layout_of_mem (a := vm.mem.length) hr
    have := T.canon.nonempty r hr
    rw [assignAll_oob]
    · rfl
    · exact markAll_InMem (layout_inMem (by rw [totalLen_ranges]; exact hl1))
    · exact ⟨en, hen, by omega⟩
  · rw [if_neg hall, if_neg hall]
    have hTc : T = commit.union reveal := by rw [← hT]; simp [allocRanges, hall]
    have hTmem : ∀ x, x ∈ T ↔ x ∈ reveal ∨ x ∈ commit := by
      intro x; rw [hTc, RangeSet.mem_union]; exact or_comm
    have hpriv : commit.diff reveal ⊆ T := fun x hx => (hTmem x).2 (.inr (RangeSet.mem_diff.1 hx).1)
    have hpub : reveal ⊆ T := fun x hx => (hTmem x).2 (.inl hx)
    obtain ⟨mp, hmp, _⟩ := indexE_ok (a := vm.mem.length) hpriv
    obtain ⟨mq, hmq, hmq'⟩ := indexE_ok (a := vm.mem.length) hpub
    rw [hmp, hmq]
    simp only [Outcome.bind_ok]
    obtain ⟨vm2, g1, g2, g3, g4, g5, g6⟩ := assign_index (vm0 := vm) (t := T)
      (vm := markAll (markAll vm1 .blind mp) .pub mq) (pub := reveal) p h.reveal
      (RangeMap.mem_index (layout_good _ T.canon) reveal.canon.nonempty hmq')
      (by obtain ⟨m, hm⟩ := hg1; exact ⟨m, by simpa using hm⟩) (by simpa using hl1)
    rw [g1]
    simp only [Outcome.bind_ok]
    have hl2 : vm.mem.length + T.len ≤ vm2.mem.length := by rw [g2]; simpa using hl1
    have hct := allocCiphertext_spec aes (h.key.mono g5) (h.iv.mono g5) vm.mem.length T hl2 (recordParams records)
    obtain ⟨r, hr, hlt⟩ := endD_gt hc
    have hrne := commit.canon.nonempty r hr
    have hx : r.2 - 1 ∈ T := (hTmem _).2 (.inr ⟨r, hr, by omega, by omega⟩)
    revert hct
    cases hact : allocCiphertext aes vm2 key iv (layout vm.mem.length T.ranges) (recordParams records) with
    | panic => exact fun h => h.elim
    | ok res =>
      simp only
      rintro ⟨_, c2, _⟩
      have := (ksAt_isSome aes k i _ _).1 (c2 _ hx)
      omega
    | err er =>
      simp only
      rintro (⟨_, r, hr, hr8⟩ | ⟨rfl, _⟩)
      · exact absurd (hnonce r hr) hr8
      · rfl

/-! ## One direction of `verify` -/

theorem allocRanges_commit (e : Bool) (reveal commit : RangeSet) (n : Nat) :
    commit ⊆ allocRanges e reveal commit n := by
  intro x hx
  unfold allocRanges
  split
  · exact hx
  · exact RangeSet.mem_union.2 (.inl hx)

theorem allocRanges_sub (e : Bool) (reveal commit : RangeSet) (n : Nat) :
    ∀ x ∈ allocRanges e reveal commit n, x ∈ reveal ∨ x ∈ commit := by
  intro x hx
  unfold allocRanges at hx
  split at hx
  · exact .inr hx
  · exact (RangeSet.mem_union.1 hx).symm

/-- An accepted direction: the revealed bytes are the decrypted ones and so are those behind the references. -/
theorem verifyPlaintext_data (aes : AesFn) (e : Bool) {vm : ZkVm} {key iv : VmVec} {k i p c : Bytes}
    {records : List Record} {reveal : RangeSet} (commit : RangeSet)
    (h : AuthPre vm key iv k i p c records reveal) (hc : commit.endD ≤ p.length) :
    ∃ vm' refs proof, verifyPlaintext aes e vm key iv p c records reveal commit = .ok (vm', refs, proof) ∧
      Grew vm vm' ∧ refs = layout vm.mem.length (allocRanges e reveal commit p.length).ranges ∧
      vm.mem.length + (allocRanges e reveal commit p.length).len ≤ vm'.mem.length ∧
      ((proof.verify aes = .ok () ∧
          (∀ x ∈ reveal, p[x]? = (records.flatMap (decryptRecord aes k i))[x]?) ∧
          Rep vm' refs (allocRanges e reveal commit p.length) (records.flatMap (decryptRecord aes k i)) ∧
          ∀ x ∈ commit, x ∉ reveal → ∀ a, refs.addrAt x = some a →
            (records.flatMap (decryptRecord aes k i))[x]? = some (vm.fill a)) ∨
       (proof.verify aes = .err .invalidPlaintext ∧
          ((∃ x ∈ reveal, p[x]? ≠ (records.flatMap (decryptRecord aes k i))[x]?) ∨
            ∃ x ∈ commit, x ∉ reveal ∧ ∃ a, refs.addrAt x = some a ∧
              (records.flatMap (decryptRecord aes k i))[x]? ≠ some (vm.fill a)))) := by
  obtain ⟨vm', proof, h1, h2, h3, h4⟩ := verifyPlaintext_spec aes e commit h hc
  generalize hT : allocRanges e reveal commit p.length = T at *
  have hlenm : vm.mem.length + T.len ≤ vm'.mem.length := by
    by_cases h0 : T.len = 0
    · obtain ⟨m, hm⟩ := h2; rw [hm, List.length_append]; omega
    · have hl : (positions T.ranges).length = T.len := by rw [positions_length, totalLen_ranges]
      have hj : (positions T.ranges)[T.len - 1]? = some ((positions T.ranges)[T.len - 1]'(by omega)) :=
        List.getElem?_eq_getElem _
      obtain ⟨v, hv, _⟩ := h3 _ _ (addrAt_layout vm.mem.length T.canon _ _ hj)
      rcases List.getElem?_eq_some_iff.1 hv with ⟨hlt, _⟩
      omega
  refine ⟨vm', _, proof, h1, h2, rfl, hlenm, ?_⟩
  have hcipher := h.cipher
  rcases h4 with ⟨v1, v2⟩ | ⟨v1, x, v, v2, v3, v4, v5⟩
  · left
    refine ⟨v1, ?_, ⟨vm.mem.length, rfl, hlenm, ?_⟩, ?_⟩
    · intro x hx
      obtain ⟨v, d1, d2, _⟩ := v2 x (.inl hx)
      rw [d2 hx, (flat_decrypt aes k i records x v).2 (by rw [← hcipher]; exact d1)]
    · intro x b hxb
      have hx := addrAt_layout_inv _ _ hxb
      rw [← hT] at hx
      obtain ⟨v, d1, _, d3⟩ := v2 x (allocRanges_sub _ _ _ _ x hx)
      exact ⟨v, d3 b hxb, (flat_decrypt aes k i records x v).2 (by rw [← hcipher]; exact d1)⟩
    · intro x hx hxr a ha
      obtain ⟨v, d1, _, d3⟩ := v2 x (.inr hx)
      obtain ⟨w, w1, w2⟩ := h3 x a ha
      rw [if_neg hxr] at w2
      rw [(flat_decrypt aes k i records x v).2 (by rw [← hcipher]; exact d1), ← d3 a ha, w1, w2]
  · right
    refine ⟨v1, ?_⟩
    have hnd : (records.flatMap (decryptRecord aes k i))[x]? ≠ some v := by
      intro hd
      exact v3 (by rw [hcipher]; exact (flat_decrypt aes k i records x v).1 hd)
    by_cases hx : x ∈ reveal
    · exact .inl ⟨x, hx, by rw [v4 hx]; exact fun h => hnd h.symm⟩
    · right
      have hxc : x ∈ commit := v2.resolve_left hx
      have hxT : x ∈ T := by rw [← hT]; exact allocRanges_commit _ _ _ _ x hxc
      obtain ⟨j, _, _, ha⟩ := addrAt_layout_mem vm.mem.length T hxT
      refine ⟨x, hxc, hx, _, ha, ?_⟩
      obtain ⟨w, w1, w2⟩ := h3 x _ ha
      rw [if_neg hx] at w2
      have := v5 _ ha
      rw [w1, w2] at this
      rw [this]; exact hnd

/-! ## The committed sets -/

theorem mem_commitSets (l : List (Direction × RangeSet × HashAlgId)) (acc : RangeSet × RangeSet) (x : Nat) :
    (x ∈ (commitSets l acc).1 ↔ x ∈ acc.1 ∨ ∃ q ∈ l, q.1 = .sent ∧ x ∈ q.2.1) ∧
    (x ∈ (commitSets l acc).2 ↔ x ∈ acc.2 ∨ ∃ q ∈ l, q.1 = .received ∧ x ∈ q.2.1) := by
  induction l generalizing acc with
  | nil => simp [commitSets]
  | cons q t ih =>
    obtain ⟨d, idx, alg⟩ := q
    cases d with
    | sent =>
      have := ih (acc.1.union idx, acc.2)
      simp only [commitSets, this, RangeSet.mem_union, List.mem_cons, exists_eq_or_imp]
      simp [or_assoc]
    | received =>
      have := ih (acc.1, acc.2.union idx)
      simp only [commitSets, this, RangeSet.mem_union, List.mem_cons, exists_eq_or_imp]
      simp [or_assoc]

theorem commitSets_sub (l : List (Direction × RangeSet × HashAlgId)) :
    ∀ q ∈ l, match q.1 with
      | .sent => q.2.1 ⊆ (commitSets l (∅, ∅)).1
      | .received => q.2.1 ⊆ (commitSets l (∅, ∅)).2 := by
  intro q hq
  obtain ⟨d, idx, alg⟩ := q
  cases d with
  | sent => intro x hx; exact ((mem_commitSets l (∅, ∅) x).1).2 (.inr ⟨_, hq, rfl, hx⟩)
  | received => intro x hx; exact ((mem_commitSets l (∅, ∅) x).2).2 (.inr ⟨_, hq, rfl, hx⟩)

/-! ## The commitments of `verify` -/

theorem verifyHash_spec (hc : HashCircuits) {ts tr : RangeSet} {data : Transcript} {refs : TranscriptRefs}
    (l : List (Direction × RangeSet × HashAlgId)) (vm : ZkVm)
    (hs : Rep vm refs.sent ts data.sent) (hr : Rep vm refs.recv tr data.received) (hl : HashReqOk hc ts tr l) :
    ∃ vm' cs, verifyHash hc vm refs l = .ok (vm', cs) ∧ Pairwise2 (Commits hc data) l cs := by
  obtain ⟨vm1, outs, h1, h2, ⟨p1, p2⟩, _⟩ := hashCommitInner_spec hc (fun _ => none) l 0 vm hs hr hl
  refine ⟨(decodeAll vm1 (outs.map (·.hash))).1, hashOutputs outs (decodeAll vm1 (outs.map (·.hash))).2,
    by simp only [verifyHash, h1, Outcome.bind_ok, Outcome.pure_eq], ?_⟩
  rw [decodeAll_values]
  constructor
  · simp [hashOutputs, p1]
  · intro n q c hq hcn
    simp only [hashOutputs, List.getElem?_map, Option.map_eq_some_iff] at hcn
    obtain ⟨⟨o, bs⟩, ho, rfl⟩ := hcn
    obtain ⟨ho1, ho2⟩ := List.getElem?_zip_eq_some.1 ho
    obtain ⟨f, msg, b, f1, f2, f3, f4, f5, f6, f7⟩ := p2 n q o hq ho1
    simp only [List.map_map, List.getElem?_map, ho1, Option.map_some, Function.comp_apply, Option.some.injEq] at ho2
    subst ho2
    exact ⟨f, msg, b, f1, f2, f3, by simp [f4, f5, f6, f7.2]⟩

/-! ## Both directions -/

theorem mapErr_eq_ok {α ε δ : Type} {f : ε → δ} {x : Outcome ε α} {a : α} : mapErr f x = .ok a ↔ x = .ok a := by
  cases x <;> simp [mapErr]

theorem HoldsKeys.mono {vm vm' : ZkVm} (h : Grew vm vm') {r : KeyRefs} {k : KeyBytes} (hk : HoldsKeys vm r k) :
    HoldsKeys vm' r k :=
  ⟨Holds.mono h hk.ck, Holds.mono h hk.ci, Holds.mono h hk.sk, Holds.mono h hk.si⟩

theorem chooseTranscript_ok {cs cr : Bytes} {request : ProveRequest} {transcript : Option PartialTranscript}
    {t : PartialTranscript} (h : chooseTranscript cs cr request transcript = .ok t) :
    t.sent.length = cs.length ∧ t.received.length = cr.length ∧
      (request.reveal = none → t = PartialTranscript.new cs.length cr.length) ∧
      (∀ r, request.reveal = some r → transcript = some t ∧ t.sentAuthed = r.1 ∧ t.receivedAuthed = r.2) := by
  unfold chooseTranscript at h
  cases hr : request.reveal with
  | none =>
    simp only [hr, Outcome.ok.injEq] at h
    subst h
    simp [PartialTranscript.new]
  | some r =>
    obtain ⟨a, b⟩ := r
    simp only [hr] at h
    cases transcript with
    | none => simp at h
    | some u =>
      simp only at h
      by_cases h1 : u.sent.length ≠ cs.length ∨ u.received.length ≠ cr.length
      · simp [h1] at h
      by_cases h2 : u.sentAuthed = a
      · by_cases h3 : u.receivedAuthed = b
        · rw [if_neg h1] at h
          simp [h2, h3] at h
          subst h
          refine ⟨by omega, by omega, by simp, ?_⟩
          intro r hr; simp at hr; subst hr; exact ⟨rfl, h2, h3⟩
        · rw [if_neg h1] at h; simp [h2, h3] at h
      · rw [if_neg h1] at h; simp [h2] at h

theorem chooseTranscript_wf {cs cr : Bytes} {request : ProveRequest} {transcript : Option PartialTranscript}
    {t : PartialTranscript} (hwf : ∀ t, transcript = some t → t.WF)
    (h : chooseTranscript cs cr request transcript = .ok t) : t.WF := by
  obtain ⟨_, _, h1, h2⟩ := chooseTranscript_ok h
  cases hr : request.reveal with
  | none =>
    rw [h1 hr]
    intro d i hi
    cases d <;> exact absurd hi (RangeSet.not_mem_empty i)
  | some r => exact hwf t (h2 r hr).1

theorem appRecords_nonce {rs : List Record} (h : ∀ r ∈ rs, r.typ = .applicationData → r.nonce.length = 8) :
    ∀ r ∈ appRecords rs, r.nonce.length = 8 := by
  intro r hr
  simp only [appRecords, List.mem_filter, decide_eq_true_eq] at hr
  exact h r hr.1 hr.2

theorem authPre_sent {vm : ZkVm} {keys : KeyRefs} {k : KeyBytes} {tls : SessionView} (hk : HoldsKeys vm keys k)
    (hw : WellFormed tls) {p : Bytes} {reveal : RangeSet} (hp : p.length = (collectCiphertext tls.sent).length)
    (hr : reveal.endD ≤ p.length) :
    AuthPre vm keys.clientKey keys.clientIv k.clientKey k.clientIv p (collectCiphertext tls.sent)
      (appRecords tls.sent) reveal :=
  ⟨hk.ck, hk.ci, appRecords_nonce fun r hr => hw r (.inl hr), collect_eq _, hp, hr⟩

theorem authPre_recv {vm : ZkVm} {keys : KeyRefs} {k : KeyBytes} {tls : SessionView} (hk : HoldsKeys vm keys k)
    (hw : WellFormed tls) {p : Bytes} {reveal : RangeSet} (hp : p.length = (collectCiphertext tls.recv).length)
    (hr : reveal.endD ≤ p.length) :
    AuthPre vm keys.serverKey keys.serverIv k.serverKey k.serverIv p (collectCiphertext tls.recv)
      (appRecords tls.recv) reveal :=
  ⟨hk.sk, hk.si, appRecords_nonce fun r hr => hw r (.inr hr), collect_eq _, hp, hr⟩

theorem rep_exists {vm : ZkVm} (a : Nat) (t : RangeSet) (h : a + t.len ≤ vm.mem.length) :
    ∃ d, Rep vm (layout a t.ranges) t d := by
  refine ⟨(List.range t.endD).map fun x => (((layout a t.ranges).addrAt x).bind (vm.mem[·]?)).getD 0, a, rfl, h, ?_⟩
  intro x b hb
  have hx := addrAt_layout_inv _ _ hb
  obtain ⟨j, _, hj, hj2⟩ := addrAt_layout_mem a t hx
  rw [hb] at hj2; simp at hj2
  rw [totalLen_ranges] at hj
  have hlt : b < vm.mem.length := by omega
  refine ⟨vm.mem[b], List.getElem?_eq_getElem hlt, ?_⟩
  rw [List.getElem?_map, List.getElem?_range (RangeSet.mem_lt_endD hx)]
  simp [hb, List.getElem?_eq_getElem hlt]

theorem verifyCommitments_eq (hc : HashCircuits) (vm : ZkVm) (refs : TranscriptRefs) (request : ProveRequest) :
    verifyCommitments hc vm refs request =
      if request.hashes = [] then .ok (vm, []) else mapErr .hashSetup (verifyHash hc vm refs request.hashes) := by
  unfold verifyCommitments ProveRequest.hashes
  cases request.transcriptCommit with
  | none => rfl
  | some c =>
    simp only [CommitRequest.hasHash]
    by_cases h : c.hash = []
    · simp [h]
    · simp [h]

/-- The commitments when every algorithm is supported. -/
theorem verifyCommitments_ok (hc : HashCircuits) {ts tr : RangeSet} {data : Transcript} {refs : TranscriptRefs}
    (vm : ZkVm) (request : ProveRequest)
    (hs : Rep vm refs.sent ts data.sent) (hr : Rep vm refs.recv tr data.received)
    (hl : HashReqOk hc ts tr request.hashes) :
    ∃ vm' cs, verifyCommitments hc vm refs request = .ok (vm', cs) ∧
      Pairwise2 (Commits hc data) request.hashes cs := by
  rw [verifyCommitments_eq]
  by_cases h : request.hashes = []
  · rw [if_pos h, h]; exact ⟨vm, [], rfl, rfl, by simp⟩
  · rw [if_neg h]
    obtain ⟨vm', cs, h1, h2⟩ := verifyHash_spec hc request.hashes vm hs hr hl
    exact ⟨vm', cs, by rw [h1]; rfl, h2⟩

theorem verifyCommitments_unsupported (hc : HashCircuits) {ts tr : RangeSet} {data : Transcript}
    {refs : TranscriptRefs} (vm : ZkVm) (request : ProveRequest)
    (hs : Rep vm refs.sent ts data.sent) (hr : Rep vm refs.recv tr data.received)
    (hl : ∀ q ∈ request.hashes, match q.1 with
      | .sent => q.2.1 ⊆ ts
      | .received => q.2.1 ⊆ tr)
    (hu : ∃ q ∈ request.hashes, hc q.2.2 = none) :
    verifyCommitments hc vm refs request = .err (.hashSetup .unsupportedAlg) := by
  rw [verifyCommitments_eq]
  have h : request.hashes ≠ [] := by
    intro h; rw [h] at hu; simp at hu
  rw [if_neg h, verifyHash, hashCommitInner_unsupported hc _ _ 0 vm hs hr hl hu]
  rfl

/-- What `verify` does after the transcript and the identity were accepted. -/
inductive Verdict (aes : AesFn) (hc : HashCircuits) (e : Bool) (k : KeyBytes) (tls : SessionView)
    (request : ProveRequest) (t : PartialTranscript) (name : Option ServerName) :
    Outcome ProvingError (ZkVm × VerifierOutput) → Prop
  | sentOob (h : t.sent.length < (commitSets request.hashes (∅, ∅)).1.endD) :
      Verdict aes hc e k tls request t name
        (if isRevealAll e t.sentAuthed t.sent.length then .panic else .err (.sentSetup .outOfBounds))
  | recvOob (h1 : (commitSets request.hashes (∅, ∅)).1.endD ≤ t.sent.length)
      (h : t.received.length < (commitSets request.hashes (∅, ∅)).2.endD) :
      Verdict aes hc e k tls request t name
        (if isRevealAll e t.receivedAuthed t.received.length then .panic else .err (.recvSetup .outOfBounds))
  | unsupported (h1 : (commitSets request.hashes (∅, ∅)).1.endD ≤ t.sent.length)
      (h2 : (commitSets request.hashes (∅, ∅)).2.endD ≤ t.received.length)
      (h : ∃ q ∈ request.hashes, hc q.2.2 = none) :
      Verdict aes hc e k tls request t name (.err (.hashSetup .unsupportedAlg))
  | badSent (h1 : (commitSets request.hashes (∅, ∅)).1.endD ≤ t.sent.length)
      (h2 : (commitSets request.hashes (∅, ∅)).2.endD ≤ t.received.length) :
      Verdict aes hc e k tls request t name (.err (.sentProof .invalidPlaintext))
  | badRecv (h1 : (commitSets request.hashes (∅, ∅)).1.endD ≤ t.sent.length)
      (h2 : (commitSets request.hashes (∅, ∅)).2.endD ≤ t.received.length) :
      Verdict aes hc e k tls request t name (.err (.recvProof .invalidPlaintext))
  | good (h1 : (commitSets request.hashes (∅, ∅)).1.endD ≤ t.sent.length)
      (h2 : (commitSets request.hashes (∅, ∅)).2.endD ≤ t.received.length)
      (hs : ∀ x ∈ t.sentAuthed, t.sent[x]? = (sessionData aes k tls).sent[x]?)
      (hr : ∀ x ∈ t.receivedAuthed, t.received[x]? = (sessionData aes k tls).received[x]?)
      (vm' : ZkVm) (cs : List PlaintextHash)
      (hcs : Pairwise2 (Commits hc (sessionData aes k tls)) request.hashes cs) :
      Verdict aes hc e k tls request t name
        (.ok (vm', ⟨name, if request.reveal.isSome then some t else none, cs⟩))

theorem verifySession_verdict (aes : AesFn) (hc : HashCircuits) (e : Bool) (certs : CertVerifier) {vm : ZkVm}
    {keys : KeyRefs} {k : KeyBytes} {tls : SessionView} (request : ProveRequest)
    {handshake : Option (ServerName × HandshakeData)} {transcript : Option PartialTranscript}
    (hk : HoldsKeys vm keys k) (hw : WellFormed tls) (hwf : ∀ t, transcript = some t → t.WF)
    {t : PartialTranscript} {name : Option ServerName}
    (ht : chooseTranscript (collectCiphertext tls.sent) (collectCiphertext tls.recv) request transcript = .ok t)
    (hn : checkIdentity certs tls handshake = .ok name) :
    Verdict aes hc e k tls request t name
      (verifySession aes hc e certs vm keys tls request handshake transcript) := by
  obtain ⟨hl1, hl2, _, _⟩ := chooseTranscript_ok ht
  obtain ⟨hwf1, hwf2⟩ := PartialTranscript.wf_iff.1 (chooseTranscript_wf hwf ht)
  have hps := authPre_sent hk hw hl1 hwf1
  simp only [verifySession, ht, hn, Outcome.bind_ok]
  have hsub := commitSets_sub request.hashes
  generalize hcm : commitSets request.hashes (∅, ∅) = cm at hsub
  by_cases ho1 : t.sent.length < cm.1.endD
  · rw [verifyPlaintext_oob aes e cm.1 hps ho1]
    have := Verdict.sentOob (aes := aes) (hc := hc) (e := e) (k := k) (tls := tls) (request := request) (t := t)
      (name := name) (by rw [hcm]; exact ho1)
    revert this
    split <;> exact id
  have hi1 : cm.1.endD ≤ t.sent.length := by omega
  obtain ⟨vm1, refs1, proof1, e1, g1, hr1, hm1, hv1⟩ := verifyPlaintext_data aes e cm.1 hps hi1
  rw [e1]
  simp only [mapErr, Outcome.bind_ok]
  have hpr := authPre_recv (hk.mono g1) hw hl2 hwf2
  by_cases ho2 : t.received.length < cm.2.endD
  · rw [verifyPlaintext_oob aes e cm.2 hpr ho2]
    have := Verdict.recvOob (aes := aes) (hc := hc) (e := e) (k := k) (tls := tls) (request := request) (t := t)
      (name := name) (by rw [hcm]; exact hi1) (by rw [hcm]; exact ho2)
    revert this
    split <;> exact id
  have hi2 : cm.2.endD ≤ t.received.length := by omega
  obtain ⟨vm2, refs2, proof2, e2, g2, hr2, hm2, hv2⟩ := verifyPlaintext_data aes e cm.2 hpr hi2
  rw [e2]
  simp only [Outcome.bind_ok]
  have hsub' : ∀ q ∈ request.hashes, match q.1 with
      | .sent => q.2.1 ⊆ allocRanges e t.sentAuthed cm.1 t.sent.length
      | .received => q.2.1 ⊆ allocRanges e t.receivedAuthed cm.2 t.received.length := by
    intro q hq
    have := hsub q hq
    obtain ⟨d, idx, alg⟩ := q
    cases d with
    | sent => exact fun x hx => allocRanges_commit _ _ _ _ x (this x hx)
    | received => exact fun x hx => allocRanges_commit _ _ _ _ x (this x hx)
  have hm1' : vm.mem.length + (allocRanges e t.sentAuthed cm.1 t.sent.length).len ≤ vm2.mem.length := by
    obtain ⟨m, hm⟩ := g2; rw [hm, List.length_append]; omega
  obtain ⟨ds, hds⟩ := rep_exists (vm := vm2) _ _ hm1'
  obtain ⟨dr, hdr⟩ := rep_exists (vm := vm2) _ _ hm2
  rw [← hr1] at hds
  rw [← hr2] at hdr
  by_cases hu : ∃ q ∈ request.hashes, hc q.2.2 = none
  · rw [verifyCommitments_unsupported hc (data := ⟨ds, dr⟩) vm2 request hds hdr hsub' hu]
    exact .unsupported (by rw [hcm]; exact hi1) (by rw [hcm]; exact hi2) hu
  have hreq : HashReqOk hc (allocRanges e t.sentAuthed cm.1 t.sent.length)
      (allocRanges e t.receivedAuthed cm.2 t.received.length) request.hashes := by
    intro q hq
    refine ⟨?_, hsub' q hq⟩
    cases hh : hc q.2.2 with
    | none => exact absurd ⟨q, hq, hh⟩ hu
    | some f => rfl
  rcases hv1 with ⟨v1, v2, v3, _⟩ | ⟨v1, _⟩
  · rcases hv2 with ⟨w1, w2, w3, _⟩ | ⟨w1, _⟩
    · obtain ⟨vm3, cs, e3, hcs⟩ := verifyCommitments_ok hc (data := sessionData aes k tls) (refs := ⟨refs1, refs2⟩)
        vm2 request (v3.mono g2) w3 hreq
      rw [e3, v1, w1]
      simp only [Outcome.bind_ok, Outcome.pure_eq]
      exact .good (by rw [hcm]; exact hi1) (by rw [hcm]; exact hi2) v2 w2 vm3 cs hcs
    · obtain ⟨vm3, cs, e3, _⟩ := verifyCommitments_ok hc (data := ⟨ds, dr⟩) (refs := ⟨refs1, refs2⟩)
        vm2 request hds hdr hreq
      rw [e3, v1, w1]
      simp only [Outcome.bind_ok]
      exact .badRecv (by rw [hcm]; exact hi1) (by rw [hcm]; exact hi2)
  · obtain ⟨vm3, cs, e3, _⟩ := verifyCommitments_ok hc (data := ⟨ds, dr⟩) (refs := ⟨refs1, refs2⟩)
      vm2 request hds hdr hreq
    rw [e3, v1]
    simp only [Outcome.bind_ok]
    exact .badSent (by rw [hcm]; exact hi1) (by rw [hcm]; exact hi2)

theorem sent_length_eq (aes : AesFn) (k : KeyBytes) (tls : SessionView) :
    (sessionData aes k tls).sent.length = (collectCiphertext tls.sent).length :=
  flat_decrypt_length aes k.clientKey k.clientIv (appRecords tls.sent)

theorem recv_length_eq (aes : AesFn) (k : KeyBytes) (tls : SessionView) :
    (sessionData aes k tls).received.length = (collectCiphertext tls.recv).length :=
  flat_decrypt_length aes k.serverKey k.serverIv (appRecords tls.recv)

theorem isRevealAll_iff {e : Bool} {s : RangeSet} {n : Nat} (h : s.endD ≤ n) :
    isRevealAll e s n = true ↔ (∀ x < n, x ∈ s) ∧ (n = 0 → e = true) := by
  constructor
  · intro hr
    refine ⟨fun x hx => (isRevealAll_mem hr x).2 hx, ?_⟩
    rintro rfl
    simp [isRevealAll] at hr
    exact hr.1
  · rintro ⟨h1, h2⟩
    unfold isRevealAll
    split
    · rename_i hn
      simp only [Bool.and_eq_true]
      refine ⟨h2 hn, RangeSet.isEmpty_iff.2 fun i hi => ?_⟩
      have := RangeSet.endD_le_iff.1 h i hi
      omega
    · rename_i hn
      have hs : s = ⟨[(0, n)], Nat.pos_of_ne_zero hn⟩ := RangeSet.ext fun i => by
        constructor
        · exact fun hi => ⟨_, List.mem_singleton.2 rfl, Nat.zero_le _, RangeSet.endD_le_iff.1 h i hi⟩
        · rintro ⟨r, hr, _, h4⟩
          rw [List.mem_singleton.1 hr] at h4
          exact h1 i h4
      rw [hs]
      exact decide_eq_true rfl

end Tlsn
