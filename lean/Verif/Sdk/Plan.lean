import Verif.Sdk.Select
import Mathlib.Data.List.Forall2

/-! # C50: the lists computed from the handlers -/

namespace Tlsn.Sdk

/-- The message of a direction. -/
def messageOf (request response : HttpMessage) : Direction → HttpMessage
  | .sent => request
  | .received => response

/-- The bytes of a direction. -/
def bytesOf (sent recv : Bytes) : Direction → Bytes
  | .sent => sent
  | .received => recv

/-- The ranges to reveal in a direction. -/
def RevealPlan.revealOf (p : RevealPlan) : Direction → List Rng
  | .sent => p.reveal.sent
  | .received => p.reveal.recv

/-- The ranges to commit to in a direction. -/
def RevealPlan.commitOf (p : RevealPlan) (d : Direction) : List CommitRange :=
  match p.commit, d with
  | none, _ => []
  | some c, .sent => c.sent
  | some c, .received => c.recv

/-- The annotated ranges of a direction. -/
def RevealPlan.annotatedOf (p : RevealPlan) : Direction → List Annotated
  | .sent => p.sentAnnotated
  | .received => p.recvAnnotated

/-- The ranges a handler contributes to the reveal list of a direction. -/
def toReveal (d : Direction) (x : Handler × List Rng) : List Rng :=
  if x.1.direction = d ∧ x.1.action = .reveal then x.2 else []

/-- The ranges a handler contributes to the commit list of a direction, with its algorithm. -/
def toCommit (d : Direction) (x : Handler × List Rng) : List CommitRange :=
  if x.1.direction = d then
    match x.1.action with
    | .reveal => []
    | .hash alg => x.2.map fun r => ⟨r.1, r.2, alg⟩
  else []

/-- The annotations of a handler in a direction. -/
def toAnnotated (d : Direction) (x : Handler × List Rng) : List Annotated :=
  if x.1.direction = d then x.2.map fun r => ⟨r, x.1⟩ else []

/-- The ranges extracted for a handler from the message of its direction. -/
def extractedFor (re : RegexEngine) (request response : HttpMessage) (sent recv : Bytes) (h : Handler) : Extracted :=
  extractRanges re h (messageOf request response h.direction) (bytesOf sent recv h.direction)

variable {re : RegexEngine} {request response : HttpMessage} {sent recv : Bytes}

/-- The lists after the loop, from those before. -/
structure Grown (s s' : Lists) (xs : List (Handler × List Rng)) : Prop where
  revealSent : s'.revealSent = s.revealSent ++ xs.flatMap (toReveal .sent)
  revealRecv : s'.revealRecv = s.revealRecv ++ xs.flatMap (toReveal .received)
  commitSent : s'.commitSent = s.commitSent ++ xs.flatMap (toCommit .sent)
  commitRecv : s'.commitRecv = s.commitRecv ++ xs.flatMap (toCommit .received)
  sentAnnotated : s'.sentAnnotated = s.sentAnnotated ++ xs.flatMap (toAnnotated .sent)
  recvAnnotated : s'.recvAnnotated = s.recvAnnotated ++ xs.flatMap (toAnnotated .received)

theorem Grown.refl (s : Lists) : Grown s s [] := by constructor <;> simp

theorem Grown.trans {s s' s'' : Lists} {xs ys : List (Handler × List Rng)} (h : Grown s s' xs) (h' : Grown s' s'' ys) :
    Grown s s'' (xs ++ ys) := by
  constructor <;> simp only [List.flatMap_append, ← List.append_assoc]
  · rw [h'.revealSent, h.revealSent]
  · rw [h'.revealRecv, h.revealRecv]
  · rw [h'.commitSent, h.commitSent]
  · rw [h'.commitRecv, h.commitRecv]
  · rw [h'.sentAnnotated, h.sentAnnotated]
  · rw [h'.recvAnnotated, h.recvAnnotated]

theorem stepHandler_eq (s : Lists) (h : Handler) :
    stepHandler re request response sent recv s h =
      match extractedFor re request response sent recv h with
      | .error e => .error e
      | .ok rs => .ok ((s.annotate h rs).act h rs) := by
  unfold stepHandler extractedFor
  cases hd : h.direction <;> rfl

theorem grown_act (s : Lists) (h : Handler) (rs : List Rng) : Grown s ((s.annotate h rs).act h rs) [(h, rs)] := by
  obtain ⟨d, p, a, q⟩ := h
  cases d <;> cases a <;> constructor <;>
    simp [Lists.annotate, Lists.act, toReveal, toCommit, toAnnotated]

theorem runHandlers_ok {hs : List Handler} {s s' : Lists}
    (h : runHandlers re request response sent recv s hs = .ok s') :
    ∃ rss, List.Forall₂ (fun h rs => extractedFor re request response sent recv h = .ok rs) hs rss ∧
      Grown s s' (hs.zip rss) := by
  induction hs generalizing s with
  | nil => cases h; exact ⟨[], .nil, Grown.refl _⟩
  | cons a hs ih =>
    unfold runHandlers at h
    rw [stepHandler_eq] at h
    cases he : extractedFor re request response sent recv a with
    | error e => rw [he] at h; cases h
    | ok rs =>
      rw [he] at h
      obtain ⟨rss, h1, h2⟩ := ih h
      exact ⟨rs :: rss, .cons he h1, (grown_act s a rs).trans h2⟩

theorem runHandlers_total {hs : List Handler} {s : Lists}
    (h : ∀ x ∈ hs, ∃ rs, extractedFor re request response sent recv x = .ok rs) :
    ∃ s', runHandlers re request response sent recv s hs = .ok s' := by
  induction hs generalizing s with
  | nil => exact ⟨s, rfl⟩
  | cons a hs ih =>
    obtain ⟨rs, he⟩ := h a (by simp)
    unfold runHandlers
    rw [stepHandler_eq, he]
    exact ih fun x hx => h x (List.mem_cons_of_mem _ hx)

/-- **C50** The lists: for each direction, the ranges to reveal are those of the REVEAL handlers of that direction, in the
order of the handlers, the ranges to commit to are those of the HASH handlers with their algorithms, and the annotated
ranges are those of all handlers, each with its handler.  There is a commit list only if it has an entry. -/
theorem C50_plan (parser : HttpParser) (re : RegexEngine) (sent recv : Bytes) (handlers : List Handler)
    (plan : RevealPlan) (h : computeReveal parser re sent recv handlers = .ok plan) :
    ∃ request response rss, parser.request sent = some request ∧ parser.response recv = some response ∧
      List.Forall₂ (fun h rs => extractedFor re request response sent recv h = .ok rs) handlers rss ∧
      (∀ d, plan.revealOf d = (handlers.zip rss).flatMap (toReveal d) ∧
        plan.commitOf d = (handlers.zip rss).flatMap (toCommit d) ∧
        plan.annotatedOf d = (handlers.zip rss).flatMap (toAnnotated d)) ∧
      plan.reveal.serverIdentity = true ∧
      (plan.commit = none ↔ ∀ d, plan.commitOf d = []) := by
  unfold computeReveal at h
  cases hq : parser.request sent with
  | none => rw [hq] at h; cases h
  | some request =>
    cases hr : parser.response recv with
    | none => rw [hq, hr] at h; cases h
    | some response =>
      rw [hq, hr] at h
      simp only at h
      cases hl : runHandlers re request response sent recv {} handlers with
      | error e => rw [hl] at h; cases h
      | ok s =>
        rw [hl] at h
        simp only [Except.ok.injEq] at h
        subst h
        obtain ⟨rss, h1, h2⟩ := runHandlers_ok hl
        refine ⟨request, response, rss, rfl, rfl, h1, fun d => ?_, rfl, ?_⟩
        · have hc : ∀ d, RevealPlan.commitOf
              ⟨⟨s.revealSent, s.revealRecv, true⟩, if s.commitSent.isEmpty && s.commitRecv.isEmpty then none
                else some ⟨s.commitSent, s.commitRecv⟩, s.sentAnnotated, s.recvAnnotated⟩ d =
              match d with | .sent => s.commitSent | .received => s.commitRecv := by
            intro d
            unfold RevealPlan.commitOf
            by_cases hb : (s.commitSent.isEmpty && s.commitRecv.isEmpty) = true
            · have hb' : s.commitSent = [] ∧ s.commitRecv = [] := by simpa using hb
              cases d <;> simp [hb'.1, hb'.2]
            · cases d <;> simp [hb]
          rw [hc]
          cases d
          · exact ⟨by simpa [RevealPlan.revealOf] using h2.revealSent, by simpa using h2.commitSent,
              by simpa [RevealPlan.annotatedOf] using h2.sentAnnotated⟩
          · exact ⟨by simpa [RevealPlan.revealOf] using h2.revealRecv, by simpa using h2.commitRecv,
              by simpa [RevealPlan.annotatedOf] using h2.recvAnnotated⟩
        · by_cases hb : (s.commitSent.isEmpty && s.commitRecv.isEmpty) = true
          · simp [hb, RevealPlan.commitOf]
          · simp only [hb, Bool.false_eq_true, if_false, reduceCtorEq, false_iff]
            intro hall
            apply hb
            have h3 := hall .sent
            have h4 := hall .received
            simp only [RevealPlan.commitOf] at h3 h4
            simp [h3, h4]

/-- **C50** The computation succeeds exactly if both messages parse and every handler applies to the message of its
direction; no handler is dropped. -/
theorem C50_plan_exists (parser : HttpParser) (re : RegexEngine) (sent recv : Bytes) (handlers : List Handler)
    (hp : ∀ h ∈ handlers, h.Plain) :
    (∃ plan, computeReveal parser re sent recv handlers = .ok plan) ↔
      ∃ request response, parser.request sent = some request ∧ parser.response recv = some response ∧
        ∀ h ∈ handlers, Applies re h (messageOf request response h.direction) := by
  constructor
  · rintro ⟨plan, h⟩
    obtain ⟨request, response, rss, h1, h2, h3, -⟩ := C50_plan parser re sent recv handlers plan h
    refine ⟨request, response, h1, h2, fun x hx => ?_⟩
    obtain ⟨n, hn⟩ := List.mem_iff_getElem?.1 hx
    obtain ⟨hlt, he⟩ := List.getElem?_eq_some_iff.1 hn
    have := List.forall₂_iff_get.1 h3
    have h4 := this.2 n hlt (this.1 ▸ hlt)
    simp only [List.get_eq_getElem, he] at h4
    exact (C50_succeeds_iff re x _ _ (hp x hx)).1 ⟨_, h4⟩
  · rintro ⟨request, response, h1, h2, h3⟩
    obtain ⟨s, hs⟩ := runHandlers_total (re := re) (request := request) (response := response) (sent := sent)
      (recv := recv) (hs := handlers) (s := {}) (fun x hx => (C50_succeeds_iff re x _ _ (hp x hx)).2 (h3 x hx))
    unfold computeReveal
    rw [h1, h2]
    simp only [hs]
    exact ⟨_, rfl⟩

theorem mem_zip_of_forall {α β : Type} {P : α → β → Prop} {l : List α} {m : List β} (h : List.Forall₂ P l m)
    {x : α × β} (hx : x ∈ l.zip m) : x.1 ∈ l ∧ P x.1 x.2 := by
  induction h with
  | nil => simp at hx
  | cons h1 _ ih =>
    rw [List.zip_cons_cons] at hx
    rcases List.mem_cons.1 hx with rfl | hx
    · exact ⟨by simp, h1⟩
    · exact ⟨List.mem_cons_of_mem _ (ih hx).1, (ih hx).2⟩

theorem exists_zip_of_forall {α β : Type} {P : α → β → Prop} {l : List α} {m : List β} (h : List.Forall₂ P l m)
    {x : α} (hx : x ∈ l) : ∃ y, (x, y) ∈ l.zip m ∧ P x y := by
  induction h with
  | nil => simp at hx
  | cons h1 _ ih =>
    rcases List.mem_cons.1 hx with rfl | hx
    · exact ⟨_, by simp, h1⟩
    · obtain ⟨y, h2, h3⟩ := ih hx
      exact ⟨y, by rw [List.zip_cons_cons]; exact List.mem_cons_of_mem _ h2, h3⟩

/-- **C50** Position by position: a position is revealed exactly if a REVEAL handler of its direction selects it. -/
theorem C50_reveals (parser : HttpParser) (re : RegexEngine) (sent recv : Bytes) (handlers : List Handler)
    (hp : ∀ h ∈ handlers, h.Plain) (request response : HttpMessage) (hq : parser.request sent = some request)
    (hr : parser.response recv = some response) (plan : RevealPlan)
    (h : computeReveal parser re sent recv handlers = .ok plan) (d : Direction) (i : Nat) :
    RangesMem i (plan.revealOf d) ↔ ∃ x ∈ handlers, x.direction = d ∧ x.action = .reveal ∧
      Selects re x (messageOf request response d) (bytesOf sent recv d) i := by
  obtain ⟨request', response', rss, h1, h2, h3, h4, -⟩ := C50_plan parser re sent recv handlers plan h
  rw [hq] at h1; cases h1
  rw [hr] at h2; cases h2
  rw [(h4 d).1, rangesMem_flatMap]
  constructor
  · rintro ⟨x, hx, hi⟩
    obtain ⟨hm, he⟩ := mem_zip_of_forall h3 hx
    unfold toReveal at hi
    split at hi
    · rename_i hc
      obtain ⟨rfl, hc2⟩ := hc
      exact ⟨x.1, hm, rfl, hc2, (C50_selected re x.1 _ _ (hp _ hm) _ he i).1 hi⟩
    · exact absurd hi rangesMem_nil
  · rintro ⟨x, hx, rfl, ha, hs⟩
    obtain ⟨rs, hz, he⟩ := exists_zip_of_forall h3 hx
    refine ⟨(x, rs), hz, ?_⟩
    rw [toReveal, if_pos ⟨rfl, ha⟩]
    exact (C50_selected re x _ _ (hp _ hx) _ he i).2 hs

/-- **C50** A position is covered by a commitment with an algorithm exactly if a HASH handler with that algorithm selects
it. -/
theorem C50_commits (parser : HttpParser) (re : RegexEngine) (sent recv : Bytes) (handlers : List Handler)
    (hp : ∀ h ∈ handlers, h.Plain) (request response : HttpMessage) (hq : parser.request sent = some request)
    (hr : parser.response recv = some response) (plan : RevealPlan)
    (h : computeReveal parser re sent recv handlers = .ok plan) (d : Direction) (alg : HashAlgorithm) (i : Nat) :
    (∃ c ∈ plan.commitOf d, c.algorithm = alg ∧ c.start ≤ i ∧ i < c.stop) ↔
      ∃ x ∈ handlers, x.direction = d ∧ x.action = .hash alg ∧
        Selects re x (messageOf request response d) (bytesOf sent recv d) i := by
  obtain ⟨request', response', rss, h1, h2, h3, h4, -⟩ := C50_plan parser re sent recv handlers plan h
  rw [hq] at h1; cases h1
  rw [hr] at h2; cases h2
  rw [(h4 d).2.1]
  simp only [List.mem_flatMap]
  constructor
  · rintro ⟨c, ⟨x, hx, hc⟩, rfl, hi⟩
    obtain ⟨hm, he⟩ := mem_zip_of_forall h3 hx
    unfold toCommit at hc
    split at hc
    · rename_i hd
      subst hd
      cases ha : x.1.action with
      | reveal => rw [ha] at hc; cases hc
      | hash alg =>
        rw [ha] at hc
        obtain ⟨r, hr1, rfl⟩ := List.mem_map.1 hc
        exact ⟨x.1, hm, rfl, ha, (C50_selected re x.1 _ _ (hp _ hm) _ he i).1 ⟨r, hr1, hi⟩⟩
    · cases hc
  · rintro ⟨x, hx, rfl, ha, hs⟩
    obtain ⟨rs, hz, he⟩ := exists_zip_of_forall h3 hx
    obtain ⟨r, hr1, hr2⟩ := (C50_selected re x _ _ (hp _ hx) _ he i).2 hs
    refine ⟨⟨r.1, r.2, alg⟩, ⟨(x, rs), hz, ?_⟩, rfl, hr2⟩
    rw [toCommit, if_pos rfl]
    simp only [ha]
    exact List.mem_map.2 ⟨r, hr1, rfl⟩

end Tlsn.Sdk
