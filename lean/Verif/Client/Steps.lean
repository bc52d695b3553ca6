import Verif.Client.Invariant

/-! # Each state of the handshake keeps the invariant -/

namespace Tlsn.Client

variable {cfg : ClientCfg} {fl : Flags} {L : List Ev} {v : View}

theorem Triple.abortAt {α : Type} {Q : α → View → Prop} (W : World) (d : UInt8) (e : CErr) :
    Triple (At cfg fl L) (Tlsn.Client.abort W d e) Q (Weak cfg) := Triple.abort W (fun _ h => h.weak) d e

theorem Triple.failAt {α : Type} {Q : α → View → Prop} (e : CErr) :
    Triple (At cfg fl L) (M.fail e) Q (Weak cfg) := Triple.fail fun _ h => h.weak

/-! ## The server hello -/

theorem duplicateFrom_iff (seen : List UInt16) (es : List ServerExtension) :
    duplicateFrom seen es = false ↔ (es.map ServerExtension.getType).Nodup ∧ ∀ e ∈ es, e.getType ∉ seen := by
  induction es generalizing seen with
  | nil => simp [duplicateFrom]
  | cons e es ih =>
    unfold duplicateFrom
    split
    · rename_i h
      simp [h]
    · rename_i h
      rw [ih]
      simp only [List.map_cons, List.nodup_cons, List.mem_map, List.mem_cons, not_or, forall_eq_or_imp]
      constructor
      · rintro ⟨h1, h2⟩
        exact ⟨⟨fun ⟨x, hx, hxe⟩ => (h2 x hx).1 hxe, h1⟩, h, fun x hx => (h2 x hx).2⟩
      · rintro ⟨⟨h1, h2⟩, -, h3⟩
        exact ⟨h2, fun x hx => ⟨fun hxe => h1 ⟨x, hx, hxe⟩, h3 x hx⟩⟩

theorem find_unique {es : List ServerExtension} (hd : (es.map ServerExtension.getType).Nodup) {e : ServerExtension}
    (he : e ∈ es) : es.find? (fun x => x.getType == e.getType) = some e := by
  induction es with
  | nil => cases he
  | cons x xs ih =>
    rw [List.map_cons, List.nodup_cons] at hd
    rw [List.find?_cons]
    rcases List.mem_cons.1 he with rfl | he
    · simp
    · have hne : x.getType ≠ e.getType := fun h => hd.1 (h ▸ List.mem_map_of_mem he)
      rw [show (x.getType == e.getType) = false by simpa using hne]
      exact ih hd.2 he

theorem findExt_mem {h : ServerHello} {typ : UInt16} {e : ServerExtension} (he : findExt h typ = some e) :
    e ∈ h.extensions ∧ e.getType = typ :=
  ⟨List.mem_of_find?_eq_some he, by simpa using List.find?_some he⟩

theorem serverHello_spec (W : World) (h : HelloCtx) (m : MessagePayload) (d : Session) (ho : d.Offer cfg)
    (hr : h.random = d.random) (hb : h.buffer.buffer = transcriptOf d.hello)
    (hs : h.sentExts = d.ch.extensions.map ClientExtension.getType) :
    Triple (At cfg quiet (d.hello ++ [.handle m])) (handleServerHello cfg W h m) (fun s => Live cfg s) (Weak cfg) := by
  unfold handleServerHello
  split
  · rename_i t sh
    cases hv : versionError sh with
    | some a => exact Triple.abortAt W _ _
    | none =>
      simp only
      split
      · exact Triple.abortAt W _ _
      rename_i hcomp
      split
      · exact Triple.abortAt W _ _
      rename_i hdup
      split
      · exact Triple.abortAt W _ _
      rename_i huns
      refine Triple.bind (Q := fun _ => At cfg quiet (d.hello ++ [.handle (.handshake ⟨t, .serverHello sh⟩)]))
        (Triple.modify fun c hc => hc) fun _ => ?_
      refine Triple.bind (Q := fun _ v => At cfg quiet (d.hello ++ [.handle (.handshake ⟨t, .serverHello sh⟩)]) v ∧
        ∀ p, alpnOf sh = some p → p ∈ cfg.alpn) ?_ fun _ => ?_
      · unfold processAlpn
        refine Triple.bind (Q := fun _ => At cfg quiet (d.hello ++ [.handle (.handshake ⟨t, .serverHello sh⟩)]))
          (Triple.modify fun c hc => hc) fun _ => ?_
        cases ha : alpnOf sh with
        | none => exact Triple.pure fun v hv => ⟨hv, by simp⟩
        | some p =>
          simp only
          split
          · rename_i hp
            exact Triple.pure fun v hv => ⟨hv, fun q hq => by cases hq; simpa using hp⟩
          · exact Triple.abortAt W _ _
      · refine Triple.fact fun halpn => ?_
        split
        · exact Triple.abortAt W _ _
        rename_i hpts
        split
        · exact Triple.abortAt W _ _
        rename_i hsuite
        refine Triple.bind (Q := fun _ => At cfg quiet (d.hello ++ [.handle (.handshake ⟨t, .serverHello sh⟩)]))
          (Triple.modify fun c hc => hc) fun _ => ?_
        -- The facts.
        have hdup' : (sh.extensions.map ServerExtension.getType).Nodup := by
          have : duplicateFrom [] sh.extensions = false := by simpa using hdup
          exact ((duplicateFrom_iff _ _).1 this).1
        have hfind : ∀ e ∈ sh.extensions, findExt sh e.getType = some e := fun e he => find_unique hdup' he
        have hsv : supportedVersion sh = none ∧ sh.legacyVersion = .tls12 := by
          unfold versionError at hv
          simp only at hv
          cases hsv : supportedVersion sh with
          | some v =>
            rw [hsv] at hv
            simp only [Option.isSome_some, if_true] at hv
            repeat' split at hv
            all_goals cases hv
          | none =>
            refine ⟨rfl, ?_⟩
            rw [hsv] at hv
            by_contra hl
            simp [hl] at hv
            split at hv <;> simp at hv
        have hchoice : ∀ scts, sctsOf sh = scts → (∀ l, scts = some l → l ≠ [] ∧ [] ∉ l) →
            ({ d with shTyp := t, sh := sh, scts := scts } : Session).Choice cfg := by
          intro scts hscts hvalid
          refine ⟨hsv.2, fun v hv => ?_, by simpa using hcomp, ?_, hdup', fun e he => ?_, fun p hp => ?_, fun l hl => ?_,
            fun l => ?_, hvalid⟩
          · have := hfind _ hv
            have h1 := hsv.1
            unfold supportedVersion at h1
            rw [show findExt sh 0x002b = _ from this] at h1
            cases h1
          · have h1 : sh.cipherSuite ∈ cipherSuites := by simpa using hsuite
            simpa only [cipherSuites, List.mem_cons, List.not_mem_nil, or_false] using h1
          · unfold unsolicited at huns
            simp only [List.any_eq_true, not_exists, not_and, Bool.and_eq_true, Bool.not_eq_true',
              Bool.not_eq_false, List.contains_iff_mem, List.mem_singleton] at huns
            by_cases h1 : e.getType ∈ h.sentExts
            · right; rw [← hs]; exact h1
            · left
              have h2 := huns e he (by simpa using h1)
              simpa using h2
          · have := hfind _ hp
            refine halpn p ?_
            unfold alpnOf
            rw [show findExt sh 0x0010 = _ from this]
          · have := hfind _ hl
            unfold ecPointsOf at hpts
            rw [show findExt sh 0x000b = _ from this] at hpts
            simpa using hpts
          · rw [← hscts]
            unfold sctsOf
            constructor
            · intro h1
              split at h1
              · rename_i l' hl'
                cases h1
                exact (findExt_mem hl').1
              · cases h1
            · intro h1
              have := hfind _ h1
              rw [show findExt sh 0x0012 = _ from this]
        have htr : TrOk cfg ((h.buffer.startHash cfg.hash).addMessage (.handshake ⟨t, .serverHello sh⟩))
            (d.hello ++ [.handle (.handshake ⟨t, .serverHello sh⟩)]) := by
          refine TrOk.add ⟨rfl, hb, fun b hb' => ?_⟩ rfl
          unfold HandshakeHashBuffer.startHash at hb'
          simp only at hb'
          split at hb'
          · cases hb'; exact hb
          · cases hb'
        have hstat : (findExt sh 0x0005).isSome = true → ∃ e ∈ sh.extensions, e.getType = 0x0005 := by
          intro h1
          obtain ⟨e, he⟩ := Option.isSome_iff_exists.1 h1
          exact ⟨e, findExt_mem he⟩
        unfold completeServerHello
        simp only
        cases hsc : sctsOf sh with
        | none =>
          exact Triple.pure fun v hv => hv.live ⟨rfl, { d with shTyp := t, sh := sh, scts := none },
            ⟨ho.1, ho.2, ho.3, ho.4, ho.5, ho.6, ho.7, ho.8, ho.9, ho.10, ho.11, ho.12⟩,
            hchoice none hsc (by simp), rfl, ⟨hr, rfl, rfl, htr⟩, rfl, hstat⟩
        | some scts =>
          simp only
          split
          · exact Triple.failAt _
          · rename_i hval
            exact Triple.pure fun v hv => hv.live ⟨rfl, { d with shTyp := t, sh := sh, scts := some scts },
              ⟨ho.1, ho.2, ho.3, ho.4, ho.5, ho.6, ho.7, ho.8, ho.9, ho.10, ho.11, ho.12⟩,
              hchoice (some scts) hsc (fun l hl => by
                cases hl
                unfold sctListInvalid at hval
                simp only [Bool.or_eq_true, List.isEmpty_iff, List.any_eq_true, not_or, not_exists, not_and] at hval
                exact ⟨hval.1, fun hm => hval.2 [] hm rfl⟩), rfl, ⟨hr, rfl, rfl, htr⟩, rfl, hstat⟩
  · exact Triple.failAt _

/-! ## The server's certificate, status and key exchange -/

theorem certificate_spec (x : Ctx) (ms : Bool) (scts : Option (List Bytes)) (m : MessagePayload)
    (h : Stage cfg quiet L (.certificate x ms scts)) :
    Triple (At cfg quiet (L ++ [.handle m])) (handleCertificate x ms scts m) (fun s => Live cfg s) (Weak cfg) := by
  obtain ⟨-, d, ho, hc, rfl, hx, rfl, hm⟩ := h
  unfold handleCertificate
  split
  · rename_i t chain
    have htr := hx.tr.add (e := .handle (.handshake ⟨t, .certificate chain⟩)) rfl
    have ho' : ({ d with certTyp := t, chain := chain, status := none } : Session).Offer cfg :=
      ⟨ho.1, ho.2, ho.3, ho.4, ho.5, ho.6, ho.7, ho.8, ho.9, ho.10, ho.11, ho.12⟩
    have hc' : ({ d with certTyp := t, chain := chain, status := none } : Session).Choice cfg :=
      ⟨hc.1, hc.2, hc.3, hc.4, hc.5, hc.6, hc.7, hc.8, hc.9, hc.10⟩
    cases ms with
    | true =>
      exact Triple.pure fun v hv => hv.live ⟨rfl, _, ho', hc', rfl, ⟨hx.1, hx.2, hx.3, htr⟩, rfl, rfl, hm rfl⟩
    | false =>
      exact Triple.pure fun v hv => hv.live ⟨rfl, _, ho', hc', fun h => (by cases h),
        by simp [Session.upToStatus]; rfl, ⟨hx.1, hx.2, hx.3, htr⟩, rfl⟩
  · exact Triple.failAt _

theorem params_eq (g : UInt16) (k : Bytes) : codecEcdhParams.encode (g, k) =
    [3] ++ beBytes 2 g.toNat ++ [UInt8.ofNat k.length] ++ k := by
  show [(3 : UInt8)] ++ (beBytes 2 g.toNat ++ ([UInt8.ofNat k.length] ++ k)) = _
  simp

theorem serverKx_spec (W : World) (x : Ctx) (cert : CertDetails) (m : MessagePayload)
    (h : Stage cfg quiet L (.serverKx x cert)) :
    Triple (At cfg quiet (L ++ [.handle m])) (handleServerKx W x cert m) (fun s => Live cfg s) (Weak cfg) := by
  obtain ⟨-, d, ho, hc, hst, rfl, hx, rfl⟩ := h
  unfold handleServerKx
  split
  · rename_i t p
    cases hk : unwrapEcdhe p with
    | none => exact Triple.abortAt W _ _
    | some e =>
      have htr := hx.tr.add (e := .handle (.handshake ⟨t, .serverKeyExchange p⟩)) rfl
      exact Triple.pure fun v hv => hv.live ⟨rfl, { d with kxTyp := t, kxBytes := p, kx := e },
        ⟨ho.1, ho.2, ho.3, ho.4, ho.5, ho.6, ho.7, ho.8, ho.9, ho.10, ho.11, ho.12⟩,
        ⟨hc.1, hc.2, hc.3, hc.4, hc.5, hc.6, hc.7, hc.8, hc.9, hc.10⟩, hst, hk, rfl, ⟨hx.1, hx.2, hx.3, htr⟩, rfl,
        by rw [params_eq]; rfl⟩
  · exact Triple.failAt _

theorem statusOrKx_spec (W : World) (x : Ctx) (scts : Option (List Bytes)) (chain : List Bytes) (m : MessagePayload)
    (h : Stage cfg quiet L (.statusOrKx x scts chain)) :
    Triple (At cfg quiet (L ++ [.handle m])) (handleStatusOrKx W x scts chain m) (fun s => Live cfg s) (Weak cfg) := by
  obtain ⟨-, d, ho, hc, rfl, hx, rfl, rfl, hs⟩ := h
  unfold handleStatusOrKx
  split
  · refine serverKx_spec W _ _ _ ⟨rfl, { d with status := none },
      ⟨ho.1, ho.2, ho.3, ho.4, ho.5, ho.6, ho.7, ho.8, ho.9, ho.10, ho.11, ho.12⟩,
      ⟨hc.1, hc.2, hc.3, hc.4, hc.5, hc.6, hc.7, hc.8, hc.9, hc.10⟩, fun h => (by cases h), ?_, ⟨hx.1, hx.2, hx.3, hx.4⟩, rfl⟩
    simp [Session.upToStatus]
    rfl
  · rename_i t ocsp
    have htr := hx.tr.add (e := .handle (.handshake ⟨t, .certificateStatus ocsp⟩)) rfl
    exact Triple.pure fun v hv => hv.live ⟨rfl, { d with status := some (t, ocsp) },
      ⟨ho.1, ho.2, ho.3, ho.4, ho.5, ho.6, ho.7, ho.8, ho.9, ho.10, ho.11, ho.12⟩,
      ⟨hc.1, hc.2, hc.3, hc.4, hc.5, hc.6, hc.7, hc.8, hc.9, hc.10⟩, fun _ => hs, by simp [Session.upToStatus]; rfl,
      ⟨hx.1, hx.2, hx.3, htr⟩, rfl⟩
  · exact Triple.failAt _

end Tlsn.Client
