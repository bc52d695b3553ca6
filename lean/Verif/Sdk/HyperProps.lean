import Verif.Sdk.Hyper
import Mathlib.Data.List.Perm.Basic
import Mathlib.Data.List.Nodup
import Mathlib.Data.List.Induction

/-! # C116 and C117: requests and responses are passed on as they are -/

namespace Tlsn.SdkHttp

/-! ## Specification -/

/-- The headers are those of the caller: each of its entries once, in some order, as `hyper` reads its name and value. -/
def HeadersOf {J : Type} (H : Hyper J) (given : Map) (hs : List (Bytes × Bytes)) : Prop :=
  ∃ l : List (Bytes × Bytes), l.Perm hs ∧ List.Forall₂ (fun g h => H.name g.1 = some h.1 ∧ H.value g.2 = some h.2) given l

/-- The body of a request: a text is sent as it is, not as a JSON string; other values as JSON. -/
def BodyOf {J : Type} (H : Hyper J) : Option (Body J) → Bytes → Prop
  | none, b => b = []
  | some (.raw r), b => b = r
  | some (.json (.str s)), b => b = H.utf8 s
  | some (.json (.other v)), b => b = H.render v

/-- The same values for a name, in the same order, and no more entries. -/
structure SameHeaders (hs out : List (Bytes × Bytes)) : Prop where
  perm : out.Perm hs
  order : ∀ n, out.filter (fun h => h.1 = n) = hs.filter (fun h => h.1 = n)

/-- An empty name stands for the name before it. -/
def named (last : Bytes) : List (Bytes × Bytes) → List (Bytes × Bytes)
  | [] => []
  | (n, v) :: rest => if n = [] then (last, v) :: named last rest else (n, v) :: named n rest

/-! ## C116: requests -/

theorem addHeaders_ok {J : Type} (H : Hyper J) (m : Map) (hs : List (Bytes × Bytes)) :
    addHeaders H m = some hs ↔ List.Forall₂ (fun g h => H.name g.1 = some h.1 ∧ H.value g.2 = some h.2) m hs := by
  induction m generalizing hs with
  | nil =>
    rw [List.forall₂_nil_left_iff]
    simp only [addHeaders, Option.some.injEq]
    exact eq_comm
  | cons e es ih =>
    obtain ⟨n, v⟩ := e
    rw [List.forall₂_cons_left_iff]
    unfold addHeaders
    cases hn : H.name n with
    | none => simp
    | some n' =>
      cases hv : H.value v with
      | none => simp
      | some v' =>
        simp only
        cases hr : addHeaders H es with
        | none =>
          simp only [reduceCtorEq, Option.some.injEq, false_iff]
          rintro ⟨b, u, -, h2, -⟩
          rw [(ih u).2 h2] at hr
          cases hr
        | some rest =>
          simp only [Option.some.injEq]
          constructor
          · rintro rfl
            exact ⟨(n', v'), rest, ⟨rfl, rfl⟩, (ih rest).1 hr, rfl⟩
          · rintro ⟨⟨b1, b2⟩, u, ⟨h1, h2⟩, h3, rfl⟩
            simp only at h1 h2
            subst h1 h2
            rw [(ih u).2 h3] at hr
            cases hr
            rfl

theorem addHeaders_some {J : Type} (H : Hyper J) (m : Map) :
    (addHeaders H m).isSome ↔ ∀ e ∈ m, (H.name e.1).isSome ∧ (H.value e.2).isSome := by
  induction m with
  | nil => simp [addHeaders]
  | cons e es ih =>
    obtain ⟨n, v⟩ := e
    rw [List.forall_mem_cons, ← ih]
    rw [addHeaders.eq_2]
    generalize addHeaders H es = x
    cases H.name n <;> cases H.value v <;> cases x <;> simp

/-- **C116**: a request is sent if and only if `hyper` can read its address, and the name and value of each header. -/
theorem C116_accepts {J : Type} (H : Hyper J) (order : Map → Map) (ho : ∀ l, (order l).Perm l) (r : Request J) :
    (r.toHyper H order).isSome ↔ (H.uri r.uri).isSome ∧ ∀ e ∈ r.headers, (H.name e.1).isSome ∧ (H.value e.2).isSome := by
  have h1 : (∀ e ∈ r.headers, (H.name e.1).isSome ∧ (H.value e.2).isSome) ↔ (addHeaders H (order r.headers)).isSome := by
    rw [addHeaders_some]
    exact ⟨fun h e he => h e ((ho _).mem_iff.1 he), fun h e he => h e ((ho _).mem_iff.2 he)⟩
  rw [h1]
  unfold Request.toHyper
  cases H.uri r.uri <;> cases addHeaders H (order r.headers) <;> simp

/-- **C116**: the request that is sent has the method, the address, the headers and the body that were asked for. -/
theorem C116_request {J : Type} (H : Hyper J) (order : Map → Map) (ho : ∀ l, (order l).Perm l) (r : Request J) (q : HyperRequest)
    (h : r.toHyper H order = some q) :
    (q.method = match r.method with | .get => "GET" | .post => "POST" | .put => "PUT" | .delete => "DELETE") ∧
      H.uri r.uri = some q.uri ∧ HeadersOf H r.headers q.headers ∧ BodyOf H r.body q.body := by
  unfold Request.toHyper at h
  cases hu : H.uri r.uri with
  | none => simp [hu] at h
  | some uri =>
    cases ha : addHeaders H (order r.headers) with
    | none => simp [hu, ha] at h
    | some hs =>
      simp only [hu, ha, Option.some.injEq] at h
      subst h
      refine ⟨by cases r.method <;> rfl, rfl, ?_, ?_⟩
      · have hf := (addHeaders_ok H _ _).1 ha
        obtain ⟨l, hl, hp⟩ := List.perm_comp_forall₂ (ho r.headers).symm hf
        exact ⟨l, hp, hl⟩
      · cases hb : r.body with
        | none => exact rfl
        | some b =>
          cases b with
          | raw _ => exact rfl
          | json v => cases v <;> exact rfl

theorem insert_new (m : Map) (k : Text) (v : Bytes) (h : ∀ e ∈ m, e.1 ≠ k) : Map.insert m k v = m ++ [(k, v)] := by
  unfold Map.insert
  rw [List.filter_eq_self.2]
  intro e he
  simpa using h e he

theorem foldl_headers {J : Type} (l : Map) (r : Request J) (hn : (l.map (·.1)).Nodup) (hd : ∀ e ∈ r.headers, e.1 ∉ l.map (·.1)) :
    l.foldl (fun c h => c.header h.1 h.2) r = { r with headers := r.headers ++ l } := by
  induction l generalizing r with
  | nil => simp
  | cons e es ih =>
    rw [List.map_cons, List.nodup_cons] at hn
    have hi : r.header e.1 e.2 = { r with headers := r.headers ++ [e] } := by
      unfold Request.header
      rw [insert_new]
      intro x hx he
      exact hd x hx (by rw [he]; exact List.mem_cons_self ..)
    rw [List.foldl_cons, hi, ih _ hn.2]
    · simp
    · intro x hx
      rcases List.mem_append.1 hx with hx | hx
      · exact fun hm => hd x hx (List.mem_cons_of_mem _ hm)
      · rw [List.mem_singleton.1 hx]
        exact hn.1

/-- **C116**: the request of a JavaScript program is sent with the method, the address, the headers and the body that it
asked for; an object has each key once. -/
theorem C116_javascript {J : Type} (H : Hyper J) (order : Map → Map) (ho : ∀ l, (order l).Perm l) (r : JsRequest J)
    (hk : (r.headers.map (·.1)).Nodup) (q : HyperRequest) (h : (convertRequest r).toHyper H order = some q) :
    (q.method = match r.method with | .get => "GET" | .post => "POST" | .put => "PUT" | .delete => "DELETE") ∧
      H.uri r.uri = some q.uri ∧ HeadersOf H r.headers q.headers ∧ BodyOf H (r.body.map .json) q.body := by
  have he : convertRequest r = ⟨r.uri, r.method, r.headers, r.body.map .json⟩ := by
    have hf := fun m => foldl_headers r.headers (Request.new (J := J) m r.uri) hk (by simp [Request.new])
    unfold convertRequest
    simp only [hf]
    cases hb : r.body <;> cases hm : r.method <;> simp [Request.new]
  rw [he] at h
  exact C116_request H order ho _ q h

/-! ## C117: responses -/

/-- The entries of a header map with their names. -/
def flat (m : HeaderMap) : List (Bytes × Bytes) := m.flatMap fun e => e.2.map fun v => (e.1, v)

/-- Distinct names, each with a value. -/
structure Wf (m : HeaderMap) : Prop where
  nodup : (m.map (·.1)).Nodup
  some : ∀ e ∈ m, e.2 ≠ []

theorem flat_cons (e : Bytes × List Bytes) (m : HeaderMap) : flat (e :: m) = e.2.map (fun v => (e.1, v)) ++ flat m := rfl

theorem append_mem (m : HeaderMap) (n v x : Bytes) (h : x ∈ (HeaderMap.append m n v).map (·.1)) : x = n ∨ x ∈ m.map (·.1) := by
  induction m with
  | nil => simpa [HeaderMap.append] using h
  | cons e es ih =>
    obtain ⟨k, vs⟩ := e
    unfold HeaderMap.append at h
    split at h
    · exact .inr h
    · rcases List.mem_cons.1 h with h | h
      · exact .inr (by rw [h]; exact List.mem_cons_self ..)
      · exact (ih h).imp id (List.mem_cons_of_mem _)

theorem append_wf (m : HeaderMap) (n v : Bytes) (h : Wf m) : Wf (HeaderMap.append m n v) := by
  induction m with
  | nil => exact ⟨by simp [HeaderMap.append], by simp [HeaderMap.append]⟩
  | cons e es ih =>
    obtain ⟨k, vs⟩ := e
    have hn := h.nodup
    rw [List.map_cons, List.nodup_cons] at hn
    have hes : Wf es := ⟨hn.2, fun e he => h.some e (List.mem_cons_of_mem _ he)⟩
    unfold HeaderMap.append
    split
    · refine ⟨by rw [List.map_cons, List.nodup_cons]; exact hn, fun e he => ?_⟩
      rcases List.mem_cons.1 he with rfl | he
      · simp
      · exact hes.some e he
    · rename_i hne
      refine ⟨?_, fun e he => ?_⟩
      · rw [List.map_cons, List.nodup_cons]
        refine ⟨fun hm => ?_, (ih hes).nodup⟩
        rcases append_mem es n v k hm with h | h
        · exact hne h
        · exact hn.1 h
      · rcases List.mem_cons.1 he with rfl | he
        · exact h.some _ (List.mem_cons_self ..)
        · exact (ih hes).some e he

theorem append_flat (m : HeaderMap) (n v : Bytes) (h : Wf m) : (flat (HeaderMap.append m n v)).Perm (flat m ++ [(n, v)]) ∧
    ∀ x, (flat (HeaderMap.append m n v)).filter (fun h => h.1 = x) = (flat m ++ [(n, v)]).filter (fun h => h.1 = x) := by
  induction m with
  | nil => exact ⟨List.Perm.refl _, fun x => rfl⟩
  | cons e es ih =>
    obtain ⟨k, vs⟩ := e
    have hn := h.nodup
    rw [List.map_cons, List.nodup_cons] at hn
    have hes : Wf es := ⟨hn.2, fun e he => h.some e (List.mem_cons_of_mem _ he)⟩
    obtain ⟨ih1, ih2⟩ := ih hes
    unfold HeaderMap.append
    split
    · rename_i hk
      subst hk
      rw [flat_cons, flat_cons]
      simp only [List.map_append, List.map_cons, List.map_nil]
      have hno : (flat es).filter (fun h => h.1 = k) = [] := by
        rw [List.filter_eq_nil_iff]
        intro e he
        unfold flat at he
        obtain ⟨a, ha, he⟩ := List.mem_flatMap.1 he
        obtain ⟨v, -, rfl⟩ := List.mem_map.1 he
        simp only [decide_eq_true_eq]
        intro hk
        exact hn.1 (List.mem_map.2 ⟨a, ha, hk⟩)
      refine ⟨?_, fun x => ?_⟩
      · rw [List.append_assoc, List.append_assoc]
        exact List.Perm.append_left _ (List.perm_append_comm)
      · simp only [List.filter_append]
        by_cases hx : k = x
        · subst hx
          rw [hno]
          simp
        · simp [hx]
    · rw [flat_cons, flat_cons]
      refine ⟨?_, fun x => ?_⟩
      · rw [List.append_assoc]
        exact List.Perm.append_left _ ih1
      · rw [List.filter_append, ih2 x, ← List.filter_append, List.append_assoc]

theorem of_snoc (hs : List (Bytes × Bytes)) (h : Bytes × Bytes) :
    HeaderMap.of (hs ++ [h]) = HeaderMap.append (HeaderMap.of hs) h.1 h.2 := by simp [HeaderMap.of]

theorem of_wf (hs : List (Bytes × Bytes)) : Wf (HeaderMap.of hs) ∧ (flat (HeaderMap.of hs)).Perm hs ∧
    ∀ x, (flat (HeaderMap.of hs)).filter (fun h => h.1 = x) = hs.filter (fun h => h.1 = x) := by
  induction hs using List.reverseRecOn with
  | nil => exact ⟨⟨by simp [HeaderMap.of], by simp [HeaderMap.of]⟩, List.Perm.refl _, fun x => rfl⟩
  | append_singleton hs h ih =>
    obtain ⟨i1, i2, i3⟩ := ih
    rw [of_snoc]
    obtain ⟨a1, a2⟩ := append_flat _ h.1 h.2 i1
    refine ⟨append_wf _ _ _ i1, a1.trans (i2.append_right _), fun x => ?_⟩
    rw [a2, List.filter_append, List.filter_append, i3]

theorem flat_perm {m m' : HeaderMap} (h : m.Perm m') (hw : Wf m) : (flat m).Perm (flat m') ∧
    ∀ x, (flat m).filter (fun h => h.1 = x) = (flat m').filter (fun h => h.1 = x) := by
  have key : ∀ (m : HeaderMap) x, (m.map (·.1)).Nodup → (flat m).filter (fun h => h.1 = x) =
      (m.filter (fun e => e.1 = x)).flatMap fun e => e.2.map fun v => (e.1, v) := by
    intro m x _
    induction m with
    | nil => rfl
    | cons e es ih =>
      rename_i hn
      rw [List.map_cons, List.nodup_cons] at hn
      rw [flat_cons, List.filter_append, ih hn.2, List.filter_cons]
      by_cases hx : e.1 = x
      · simp [hx]
      · simp [hx]
  refine ⟨h.flatMap_right _, fun x => ?_⟩
  have hw' : (m'.map (·.1)).Nodup := (h.map _).nodup_iff.1 hw.nodup
  rw [key m x hw.nodup, key m' x hw']
  have hp : (m.filter (fun e => e.1 = x)).Perm (m'.filter (fun e => e.1 = x)) := h.filter _
  have hle : ∀ m : HeaderMap, (m.map (·.1)).Nodup → (m.filter (fun e => e.1 = x)).length ≤ 1 := by
    intro m hn
    induction m with
    | nil => simp
    | cons e es ih =>
      rw [List.map_cons, List.nodup_cons] at hn
      rw [List.filter_cons]
      by_cases hx : e.1 = x
      · have : es.filter (fun e => e.1 = x) = [] := by
          rw [List.filter_eq_nil_iff]
          intro a ha
          simp only [decide_eq_true_eq]
          rintro rfl
          exact hn.1 (by rw [hx]; exact List.mem_map_of_mem ha)
        simp [hx, this]
      · simpa [hx] using ih hn.2
  have hl := hle m hw.nodup
  generalize m.filter (fun e => e.1 = x) = a at hp hl
  generalize m'.filter (fun e => e.1 = x) = b at hp
  match a, hl with
  | [], _ => rw [List.nil_perm.1 hp]
  | [y], _ => rw [List.perm_singleton.1 hp.symm]

theorem named_map (n last : Bytes) (vs : List Bytes) (rest : List (Bytes × Bytes)) (h : last = n) :
    named last (vs.map (fun v => (([] : Bytes), v)) ++ rest) = vs.map (fun v => (n, v)) ++ named n rest := by
  subst h
  induction vs with
  | nil => rfl
  | cons v vs ih => simp [named, ih]

theorem named_intoIter (m : HeaderMap) (hs : ∀ e ∈ m, e.2 ≠ []) (hn : ∀ e ∈ m, e.1 ≠ []) (last : Bytes) :
    named last (m.intoIter.map fun e => (e.1.getD [], e.2)) = flat m := by
  induction m generalizing last with
  | nil => rfl
  | cons e es ih =>
    obtain ⟨n, vs⟩ := e
    have h1 := hs _ (List.mem_cons_self ..)
    have h2 := hn _ (List.mem_cons_self ..)
    simp only at h1 h2
    cases vs with
    | nil => exact absurd rfl h1
    | cons v vs =>
      have hc : HeaderMap.intoIter ((n, v :: vs) :: es) = ((some n, v) :: vs.map fun v => (none, v)) ++ HeaderMap.intoIter es := rfl
      rw [hc, flat_cons, List.map_append, List.map_cons]
      simp only [Option.getD_some, List.map_map, List.cons_append, named, if_neg h2, List.map_cons]
      rw [show (fun e : Option Bytes × Bytes => (e.1.getD [], e.2)) ∘ (fun v => (none, v)) = fun v => (([] : Bytes), v) from rfl,
        named_map n n vs _ rfl, ih (fun e he => hs e (List.mem_cons_of_mem _ he)) (fun e he => hn e (List.mem_cons_of_mem _ he))]

theorem flat_names {m : HeaderMap} (hs : ∀ e ∈ m, e.2 ≠ []) {P : Bytes → Prop} (h : ∀ x ∈ flat m, P x.1) : ∀ e ∈ m, P e.1 := by
  intro e he
  obtain ⟨v, hv⟩ := List.exists_mem_of_ne_nil _ (hs e he)
  exact h (e.1, v) (List.mem_flatMap.2 ⟨e, he, List.mem_map_of_mem hv⟩)

/-- **C117**, what holds of every response: the status and the body are those that were received; of the headers, if
an empty name is read as the name before it, there are all, with their names and values, and the values of a name in their
order. -/
theorem C117_response_partial (order : HeaderMap → HeaderMap) (ho : ∀ l, (order l).Perm l) (status : Nat)
    (hs : List (Bytes × Bytes)) (hn : ∀ h ∈ hs, h.1 ≠ []) (body : Bytes) :
    (makeResponse order status hs body).status = status ∧
      SameHeaders hs (named [] (makeResponse order status hs body).headers) ∧
      (makeResponse order status hs body).body.getD [] = body ∧
      ((makeResponse order status hs body).body = none ↔ body = []) := by
  obtain ⟨w1, w2, w3⟩ := of_wf hs
  have hw : Wf (order (HeaderMap.of hs)) :=
    ⟨((ho _).map _).nodup_iff.2 w1.nodup, fun e he => w1.some e ((ho _).mem_iff.1 he)⟩
  obtain ⟨f1, f2⟩ := flat_perm (ho (HeaderMap.of hs)) hw
  have hname : ∀ e ∈ order (HeaderMap.of hs), e.1 ≠ [] := by
    refine flat_names (P := fun x => x ≠ []) hw.some ?_
    intro x hx
    exact hn x ((f1.trans w2).mem_iff.1 hx)
  refine ⟨rfl, ?_, ?_, ?_⟩
  · unfold makeResponse
    simp only
    rw [named_intoIter _ hw.some hname]
    exact ⟨f1.trans w2, fun n => (f2 n).trans (w3 n)⟩
  · unfold makeResponse
    cases body <;> rfl
  · unfold makeResponse
    cases body <;> simp

/-- **C117**, where it holds: if no name comes twice, the caller gets the headers that were received. -/
theorem C117_distinct_partial (order : HeaderMap → HeaderMap) (ho : ∀ l, (order l).Perm l) (status : Nat)
    (hs : List (Bytes × Bytes)) (hd : (hs.map (·.1)).Nodup) (body : Bytes) :
    (makeResponse order status hs body).headers.Perm hs := by
  have hof : ∀ hs : List (Bytes × Bytes), (hs.map (·.1)).Nodup → HeaderMap.of hs = hs.map fun h => (h.1, [h.2]) := by
    intro hs
    induction hs using List.reverseRecOn with
    | nil => intro _; rfl
    | append_singleton hs h ih =>
      intro hd
      rw [List.map_append, List.nodup_append] at hd
      rw [of_snoc, ih hd.1, List.map_append]
      have hnot : h.1 ∉ hs.map (·.1) := fun hm => hd.2.2 _ hm _ (List.mem_singleton.2 rfl) rfl
      clear ih hd
      induction hs with
      | nil => rfl
      | cons e es ih =>
        rw [List.map_cons, List.mem_cons, not_or] at hnot
        simp only [List.map_cons, List.cons_append, HeaderMap.append]
        rw [if_neg (fun he => hnot.1 he.symm), ih hnot.2]
        rfl
  unfold makeResponse
  simp only
  have hp := ho (HeaderMap.of hs)
  rw [hof hs hd] at hp ⊢
  have h1 : ∀ m : HeaderMap, m.Perm (hs.map fun h => (h.1, [h.2])) →
      (m.intoIter.map fun e => (e.1.getD [], e.2)).Perm ((HeaderMap.intoIter (hs.map fun h => (h.1, [h.2]))).map fun e => (e.1.getD [], e.2)) := by
    intro m hm
    exact (hm.flatMap_right _).map _
  refine (h1 _ hp).trans ?_
  have h2 : (HeaderMap.intoIter (hs.map fun h => (h.1, [h.2]))).map (fun e => (e.1.getD [], e.2)) = hs := by
    clear hd hp h1 hof
    induction hs with
    | nil => rfl
    | cons e es ih =>
      have hc : HeaderMap.intoIter ((e :: es).map fun h => (h.1, [h.2])) = [(some e.1, e.2)] ++ HeaderMap.intoIter (es.map fun h => (h.1, [h.2])) := rfl
      rw [hc, List.map_append, ih]
      rfl
  rw [h2]

/-- **C117**, the full property is false: of two headers with the same name (as `set-cookie` usually has) the caller gets
the second without its name, in whatever order the names are listed. -/
theorem C117_repeated (order : HeaderMap → HeaderMap) (ho : ∀ l, (order l).Perm l) (status : Nat) (n v w body : Bytes) (hn : n ≠ []) :
    (makeResponse order status [(n, v), (n, w)] body).headers = [(n, v), ([], w)] ∧
      ¬ SameHeaders [(n, v), (n, w)] (makeResponse order status [(n, v), (n, w)] body).headers := by
  have h1 : HeaderMap.of [(n, v), (n, w)] = [(n, [v, w])] := by simp [HeaderMap.of, HeaderMap.append]
  have h2 : (makeResponse order status [(n, v), (n, w)] body).headers = [(n, v), ([], w)] := by
    unfold makeResponse
    simp only
    rw [h1, List.perm_singleton.1 (ho [(n, [v, w])])]
    rfl
  refine ⟨h2, fun h => ?_⟩
  rw [h2] at h
  have := h.perm.mem_iff.1 (show (([] : Bytes), w) ∈ [(n, v), ([], w)] by simp)
  simp only [List.mem_cons, Prod.mk.injEq, List.not_mem_nil, or_false] at this
  rcases this with h | h
  · exact hn h.1.symm
  · exact hn h.1.symm

/-- **C117**: the same for a JavaScript program, which gets no body. -/
theorem C117_javascript_partial (order : HeaderMap → HeaderMap) (ho : ∀ l, (order l).Perm l) (status : Nat)
    (hs : List (Bytes × Bytes)) (hn : ∀ h ∈ hs, h.1 ≠ []) (body : Bytes) :
    (convertResponse (makeResponse order status hs body)).1 = status ∧
      SameHeaders hs (named [] (convertResponse (makeResponse order status hs body)).2) ∧
      ((hs.map (·.1)).Nodup → (convertResponse (makeResponse order status hs body)).2.Perm hs) :=
  ⟨rfl, (C117_response_partial order ho status hs hn body).2.1, fun hd => C117_distinct_partial order ho status hs hd body⟩

/-! ## Cases -/

/-- Names are not empty, values have no line feed. -/
def exampleHyper : Hyper Nat where
  uri := fun t => if t = [] then none else some [0x2f]
  name := fun t => if t = [] then none else some [0x61]
  value := fun b => if 10 ∈ b then none else some b
  utf8 := fun t => t.map fun c => c.toNat.toUInt8
  render := fun _ => [0x31]

example : (convertRequest ⟨['/'], .post, [(['a'], [1]), (['b'], [2])], some (.str ['x'])⟩).toHyper exampleHyper List.reverse =
    some ⟨"POST", [0x2f], [([0x61], [2]), ([0x61], [1])], [0x78]⟩ := by decide +kernel

example : (convertRequest ⟨['/'], .get, [(['a'], [10])], none⟩).toHyper exampleHyper id = none := by decide +kernel

example : makeResponse id 200 [([1], [5]), ([2], [6]), ([1], [7])] [9] = ⟨200, [([1], [5]), ([], [7]), ([2], [6])], some [9]⟩ := by
  decide +kernel

end Tlsn.SdkHttp
