import Verif.Sdk.Example
import Mathlib.Tactic.ByContra

/-!
# What an error of the HTTP committer says (C142)

`Verif.Sdk.Committer` keeps only the error of the builder.  Here the errors are those of crates/formats/src/http/commit.rs.
-/

namespace Tlsn.Sdk

/-- crates/formats/src/http/mod.rs:18-23 `MessageKind` -/
inductive MessageKind where
  | request
  | response
  deriving DecidableEq, Repr

/-- What could not be committed, as named in the message of the error. -/
inductive HttpPart where
  | entire
  | withoutData
  | target
  | header (name : Text)
  | headerWithoutValue (name : Text)
  | json
  | body
  deriving DecidableEq, Repr

/-- crates/formats/src/http/commit.rs:122-128, 131-139, 172-178, 201-207, 210-221, 246-267 and, for responses, 289-295,
298-306, 338-344, 347-358, 383-404: the messages. -/
def HttpPart.msg : MessageKind → HttpPart → List Char
  | .request, .entire => "failed to commit to entire request".toList
  | .response, .entire => "failed to commit to entire response".toList
  | .request, .withoutData => "failed to commit to request with excluded data".toList
  | .response, .withoutData => "failed to commit to response excluding data".toList
  | _, .target => "failed to commit to target in request".toList
  | _, .header name => "failed to commit to \"".toList ++ name ++ "\" header".toList
  | .request, .headerWithoutValue name => "failed to commit to \"".toList ++ name ++ "\" header excluding value".toList
  | .response, .headerWithoutValue name => "failed to commit to \"".toList ++ name ++ "\" header excluding value in response".toList
  | _, .json => "failed to commit to JSON body".toList
  | _, .body => "failed to commit to unknown content body".toList

/-- crates/formats/src/http/commit.rs:10-19 `HttpCommitError`; `part` stands for the message. -/
structure HttpCommitError where
  index : Option Nat
  kind : MessageKind
  part : HttpPart
  source : IndexError
  deriving DecidableEq, Repr

/-- `map_err(|e| HttpCommitError::new_with_source(kind, part, e))`, crates/formats/src/http/commit.rs:43-54 `new_with_source`. -/
def blame (kind : MessageKind) (part : HttpPart) {α : Type} : Except IndexError α → Except HttpCommitError α
  | .ok a => .ok a
  | .error e => .error ⟨none, kind, part, e⟩

/-- crates/formats/src/http/commit.rs:194-225 `commit_request_header` and 331-362 `commit_response_header`. -/
def httpHeader (kind : MessageKind) (d : Direction) (b : CommitBuilder) (h : Header) : Except HttpCommitError CommitBuilder :=
  match blame kind (.header h.name) (commitSet d b h.span) with
  | .error e => .error e
  | .ok b1 => if h.value.isEmpty then .ok b1 else blame kind (.headerWithoutValue h.name) (commitSet d b1 h.withoutValue)

/-- The loops of crates/formats/src/http/commit.rs:144-146 and 309-311. -/
def httpHeaders (kind : MessageKind) (d : Direction) (b : CommitBuilder) : List Header → Except HttpCommitError CommitBuilder
  | [] => .ok b
  | h :: hs => match httpHeader kind d b h with
    | .error e => .error e
    | .ok b1 => httpHeaders kind d b1 hs

/-- crates/formats/src/http/commit.rs:239-270 `commit_request_body` and 376-407 `commit_response_body`.  The error of the JSON committer is
replaced by its source, the error of the builder. -/
def httpBody (kind : MessageKind) (w : ArrayFrame) (d : Direction) (b : CommitBuilder) (body : Body) :
    Except HttpCommitError CommitBuilder :=
  match body.content with
  | some root => blame kind .json (commitValue w d b root)
  | none => blame kind .body (commitSet d b body.span)

/-- crates/formats/src/http/commit.rs:116-153 `commit_request` and 283-318 `commit_response`. -/
def httpMessage (kind : MessageKind) (w : ArrayFrame) (d : Direction) (b : CommitBuilder) (m : HttpMessage) :
    Except HttpCommitError CommitBuilder :=
  match blame kind .entire (commitSet d b m.span) with
  | .error e => .error e
  | .ok b1 =>
    match blame kind .withoutData (commitRest d b1 m) with
    | .error e => .error e
    | .ok b2 =>
      match blame kind .target (commitTarget d b2 m) with
      | .error e => .error e
      | .ok b3 =>
        match httpHeaders kind d b3 m.headers with
        | .error e => .error e
        | .ok b4 =>
          match m.body with
          | some body => httpBody kind w d b4 body
          | none => .ok b4

/-- The loops of crates/formats/src/http/commit.rs:94-100. -/
def httpMessages (kind : MessageKind) (w : ArrayFrame) (d : Direction) (b : CommitBuilder) :
    List HttpMessage → Except HttpCommitError CommitBuilder
  | [] => .ok b
  | m :: ms => match httpMessage kind w d b m with
    | .error e => .error e
    | .ok b1 => httpMessages kind w d b1 ms

/-- crates/formats/src/http/commit.rs:89-103 `commit_transcript`. -/
def httpTranscript (w : ArrayFrame) (b : CommitBuilder) (requests responses : List HttpMessage) :
    Except HttpCommitError CommitBuilder :=
  match httpMessages .request w .sent b requests with
  | .error e => .error e
  | .ok b1 => httpMessages .response w .received b1 responses

/-! ## Specification -/

/-- The positions that the message of the error stands for. -/
inductive Named (w : ArrayFrame) (m : HttpMessage) : HttpPart → RangeSet → Prop where
  | entire : Named w m .entire m.span
  | withoutData {idx} : (m.headers ≠ [] ∨ m.body ≠ none) →
      (∀ i, i ∈ idx ↔ i ∈ m.span ∧ (∀ s method target, m.start = .request s method target → ¬ i ∈ target) ∧
        (∀ h ∈ m.headers, ¬ i ∈ h.span) ∧ ∀ b, m.body = some b → ¬ i ∈ b.span) → Named w m .withoutData idx
  | target {s method t} : m.start = .request s method t → Named w m .target t
  | header {h} : h ∈ m.headers → Named w m (.header h.name) h.span
  | headerWithoutValue {h i idx} : h ∈ m.headers → i ∈ h.value → (∀ j, j ∈ idx ↔ j ∈ h.span ∧ ¬ j ∈ h.value) →
      Named w m (.headerWithoutValue h.name) idx
  | json {b root idx} : m.body = some b → b.content = some root → JsonPart w root idx → Named w m .json idx
  | body {b} : m.body = some b → b.content = none → Named w m .body b.span

/-- A set with a position outside of the transcript. -/
def Outside (t : Transcript) (d : Direction) (s : RangeSet) : Prop := ∃ i ∈ s, (t.data d).length ≤ i

/-- The messages of a kind and the direction in which they go. -/
def MessageKind.direction : MessageKind → Direction
  | .request => .sent
  | .response => .received

/-! ## Proofs -/

theorem commitSet_outside {d : Direction} {b : CommitBuilder} {s : RangeSet} {e : IndexError} (h : commitSet d b s = .error e) :
    Outside b.transcript d s := by
  by_contra hn
  obtain ⟨b', hb⟩ := commitSet_total (d := d) (b := b) (s := s) (fun i hi => by
    by_contra hlt
    exact hn ⟨i, hi, Nat.not_lt.1 hlt⟩)
  rw [hb] at h
  cases h

theorem commitSets_outside {d : Direction} {b : CommitBuilder} {l : List RangeSet} {e : IndexError}
    (h : commitSets d b l = .error e) : ∃ s ∈ l, Outside b.transcript d s := by
  by_contra hn
  obtain ⟨b', hb⟩ := commitSets_total (d := d) (b := b) (l := l) (fun s hs i hi => by
    by_contra hlt
    exact hn ⟨s, hs, i, hi, Nat.not_lt.1 hlt⟩)
  rw [hb] at h
  cases h

theorem blame_ok {kind : MessageKind} {part : HttpPart} {α : Type} {r : Except IndexError α} {a : α} (h : blame kind part r = .ok a) :
    r = .ok a := by
  cases r with
  | ok x => cases h; rfl
  | error x => cases h

theorem blame_err {kind : MessageKind} {part : HttpPart} {α : Type} {r : Except IndexError α} {e : HttpCommitError}
    (h : blame kind part r = .error e) : r = .error e.source ∧ e.kind = kind ∧ e.part = part ∧ e.index = none := by
  cases r with
  | ok x => cases h
  | error x => cases h; exact ⟨rfl, rfl, rfl, rfl⟩

/-- Forgets all but the error of the builder. -/
def sourceOf {α : Type} : Except HttpCommitError α → Except IndexError α
  | .ok a => .ok a
  | .error e => .error e.source

theorem sourceOf_blame (kind : MessageKind) (part : HttpPart) {α : Type} (r : Except IndexError α) :
    sourceOf (blame kind part r) = r := by cases r <;> rfl

theorem sourceOf_header (kind : MessageKind) (d : Direction) (b : CommitBuilder) (h : Header) :
    sourceOf (httpHeader kind d b h) = commitHeader d b h := by
  unfold httpHeader commitHeader
  cases commitSet d b h.span with
  | error e => rfl
  | ok b1 =>
    simp only [blame]
    split
    · rfl
    · exact sourceOf_blame _ _ _

theorem sourceOf_headers (kind : MessageKind) (d : Direction) (b : CommitBuilder) (hs : List Header) :
    sourceOf (httpHeaders kind d b hs) = commitHeaders d b hs := by
  induction hs generalizing b with
  | nil => rfl
  | cons h hs ih =>
    unfold httpHeaders commitHeaders
    rw [← sourceOf_header kind]
    cases httpHeader kind d b h with
    | error e => rfl
    | ok b1 => exact ih b1

theorem sourceOf_body (kind : MessageKind) (w : ArrayFrame) (d : Direction) (b : CommitBuilder) (body : Body) :
    sourceOf (httpBody kind w d b body) = commitBody w d b body := by
  unfold httpBody commitBody
  cases body.content <;> exact sourceOf_blame _ _ _

theorem sourceOf_message (kind : MessageKind) (w : ArrayFrame) (d : Direction) (b : CommitBuilder) (m : HttpMessage) :
    sourceOf (httpMessage kind w d b m) = commitMessage w d b m := by
  unfold httpMessage commitMessage
  cases commitSet d b m.span with
  | error e => rfl
  | ok b1 =>
    simp only [blame]
    cases commitRest d b1 m with
    | error e => rfl
    | ok b2 =>
      dsimp only
      cases commitTarget d b2 m with
      | error e => rfl
      | ok b3 =>
        dsimp only
        rw [← sourceOf_headers kind]
        cases httpHeaders kind d b3 m.headers with
        | error e => rfl
        | ok b4 =>
          simp only [sourceOf]
          cases m.body with
          | none => rfl
          | some body => exact sourceOf_body kind w d b4 body

theorem sourceOf_messages (kind : MessageKind) (w : ArrayFrame) (d : Direction) (b : CommitBuilder) (ms : List HttpMessage) :
    sourceOf (httpMessages kind w d b ms) = commitMessages w d b ms := by
  induction ms generalizing b with
  | nil => rfl
  | cons m ms ih =>
    unfold httpMessages commitMessages
    rw [← sourceOf_message kind]
    cases httpMessage kind w d b m with
    | error e => rfl
    | ok b1 => exact ih b1

theorem headers_err {kind : MessageKind} {w : ArrayFrame} {d : Direction} {b : CommitBuilder} {m : HttpMessage} {hs : List Header}
    {e : HttpCommitError} (hsub : ∀ h ∈ hs, h ∈ m.headers) (he : httpHeaders kind d b hs = .error e) :
    e.index = none ∧ e.kind = kind ∧ ∃ idx, Named w m e.part idx ∧ Outside b.transcript d idx := by
  induction hs generalizing b with
  | nil => cases he
  | cons h hs ih =>
    unfold httpHeaders at he
    cases h1 : httpHeader kind d b h with
    | ok b1 =>
      rw [h1] at he
      have hc := sourceOf_header kind d b h
      rw [h1] at hc
      have ht : b1.transcript = b.transcript := by
        have hx : commitHeaders d b [h] = .ok b1 := by unfold commitHeaders; rw [← hc]; rfl
        rw [commitHeaders_eq] at hx
        exact (commitSets_ok hx).1
      rw [← ht]
      exact ih (fun x hx => hsub x (List.mem_cons_of_mem _ hx)) he
    | error e' =>
      rw [h1] at he
      cases he
      have hm := hsub h (by simp)
      unfold httpHeader at h1
      cases h2 : blame kind (.header h.name) (commitSet d b h.span) with
      | error e'' =>
        rw [h2] at h1
        cases h1
        obtain ⟨a1, a2, a3, a4⟩ := blame_err h2
        exact ⟨a4, a2, h.span, by rw [a3]; exact .header hm, commitSet_outside a1⟩
      | ok b1 =>
        rw [h2] at h1
        have ht := (commitSet_ok (blame_ok h2)).1
        simp only at h1
        split at h1
        · cases h1
        · rename_i hv
          obtain ⟨a1, a2, a3, a4⟩ := blame_err h1
          rcases Classical.not_forall.1 (fun h => hv (RangeSet.isEmpty_iff.2 h)) with ⟨i, hi⟩
          refine ⟨a4, a2, h.withoutValue, ?_, ht ▸ commitSet_outside a1⟩
          rw [a3]
          exact .headerWithoutValue hm (Classical.not_not.1 hi) fun j => by simp [Header.withoutValue]

theorem message_err {kind : MessageKind} {w : ArrayFrame} {d : Direction} {b : CommitBuilder} {m : HttpMessage}
    {e : HttpCommitError} (he : httpMessage kind w d b m = .error e) :
    e.index = none ∧ e.kind = kind ∧ (e.part ≠ .entire → Below (b.transcript.data d).length m.span) ∧
      ∃ idx, Named w m e.part idx ∧ Outside b.transcript d idx := by
  unfold httpMessage at he
  cases h1 : blame kind .entire (commitSet d b m.span) with
  | error e' =>
    rw [h1] at he; cases he
    obtain ⟨a1, a2, a3, a4⟩ := blame_err h1
    exact ⟨a4, a2, fun h => absurd a3 h, m.span, by rw [a3]; exact .entire, commitSet_outside a1⟩
  | ok b1 =>
    rw [h1] at he
    obtain ⟨t1, -, hb, -⟩ := commitSet_ok (blame_ok h1)
    simp only at he
    cases h2 : blame kind .withoutData (commitRest d b1 m) with
    | error e' =>
      rw [h2] at he; cases he
      obtain ⟨a1, a2, a3, a4⟩ := blame_err h2
      unfold commitRest at a1
      split at a1
      · rename_i hc
        refine ⟨a4, a2, fun _ => hb, m.withoutData, ?_, t1 ▸ commitSet_outside a1⟩
        rw [a3]
        refine .withoutData ?_ (withoutData_mem m)
        simp only [Bool.or_eq_true, Bool.not_eq_true', List.isEmpty_eq_false_iff] at hc
        exact hc.imp id fun h => by rw [← Option.isSome_iff_ne_none]; exact h
      · cases a1
    | ok b2 =>
      rw [h2] at he
      simp only at he
      have t2 : b2.transcript = b.transcript := by
        have hx := blame_ok h2
        unfold commitRest at hx
        split at hx
        · exact (commitSet_ok hx).1.trans t1
        · cases hx; exact t1
      cases h3 : blame kind .target (commitTarget d b2 m) with
      | error e' =>
        rw [h3] at he; cases he
        obtain ⟨a1, a2, a3, a4⟩ := blame_err h3
        unfold commitTarget at a1
        cases hs : m.start with
        | status s c r => rw [hs] at a1; cases a1
        | request s me ta =>
          rw [hs] at a1
          exact ⟨a4, a2, fun _ => hb, ta, by rw [a3]; exact .target hs, t2 ▸ commitSet_outside a1⟩
      | ok b3 =>
        rw [h3] at he
        simp only at he
        have t3 : b3.transcript = b.transcript := by
          have hx := blame_ok h3
          unfold commitTarget at hx
          cases hs : m.start with
          | status s c r => rw [hs] at hx; cases hx; exact t2
          | request s me ta => rw [hs] at hx; exact (commitSet_ok hx).1.trans t2
        cases h4 : httpHeaders kind d b3 m.headers with
        | error e' =>
          rw [h4] at he; cases he
          obtain ⟨a1, a2, a4⟩ := headers_err (w := w) (m := m) (fun _ h => h) h4
          exact ⟨a1, a2, fun _ => hb, t3 ▸ a4⟩
        | ok b4 =>
          rw [h4] at he
          simp only at he
          have t4 : b4.transcript = b.transcript := by
            have hc := sourceOf_headers kind d b3 m.headers
            rw [h4, commitHeaders_eq] at hc
            exact (commitSets_ok hc.symm).1.trans t3
          cases hm : m.body with
          | none => rw [hm] at he; cases he
          | some body =>
            rw [hm] at he
            simp only at he
            unfold httpBody at he
            cases hc : body.content with
            | none =>
              rw [hc] at he
              obtain ⟨a1, a2, a3, a4⟩ := blame_err he
              exact ⟨a4, a2, fun _ => hb, body.span, by rw [a3]; exact .body hm hc, t4 ▸ commitSet_outside a1⟩
            | some root =>
              rw [hc] at he
              obtain ⟨a1, a2, a3, a4⟩ := blame_err he
              rw [commitValue_eq] at a1
              obtain ⟨s, hs, ho⟩ := commitSets_outside a1
              exact ⟨a4, a2, fun _ => hb, s, by rw [a3]; exact .json hm hc ((valueSets_mem w root s).1 hs), t4 ▸ ho⟩

theorem messages_err {kind : MessageKind} {w : ArrayFrame} {d : Direction} {b : CommitBuilder} {ms : List HttpMessage}
    {e : HttpCommitError} (he : httpMessages kind w d b ms = .error e) :
    e.index = none ∧ e.kind = kind ∧ ∃ pre m post idx, ms = pre ++ m :: post ∧
      (∀ m' ∈ pre, ∀ s, MessagePart w m' s → Below (b.transcript.data d).length s) ∧
      (e.part ≠ .entire → Below (b.transcript.data d).length m.span) ∧
      Named w m e.part idx ∧ Outside b.transcript d idx := by
  induction ms generalizing b with
  | nil => cases he
  | cons m ms ih =>
    unfold httpMessages at he
    cases h1 : httpMessage kind w d b m with
    | error e' =>
      rw [h1] at he; cases he
      obtain ⟨a1, a2, a3, idx, a4, a5⟩ := message_err h1
      exact ⟨a1, a2, [], m, ms, idx, rfl, (fun _ h => nomatch h), a3, a4, a5⟩
    | ok b1 =>
      rw [h1] at he
      have hc := sourceOf_message kind w d b m
      rw [h1, commitMessage_eq] at hc
      obtain ⟨t, -, hb, -⟩ := commitSets_ok hc.symm
      obtain ⟨a1, a2, pre, m', post, idx, a3, a4, a5, a6, a7⟩ := ih he
      rw [t] at a4 a5 a7
      refine ⟨a1, a2, m :: pre, m', post, idx, by rw [a3]; rfl, ?_, a5, a6, a7⟩
      intro x hx s hs
      rcases List.mem_cons.1 hx with rfl | hx
      · exact hb s ((messageSets_mem w x s).2 hs)
      · exact a4 x hx s hs

theorem messages_below {w : ArrayFrame} {d : Direction} {b b' : CommitBuilder} {ms : List HttpMessage}
    (h : commitMessages w d b ms = .ok b') : b'.transcript = b.transcript ∧
      ∀ m ∈ ms, ∀ s, MessagePart w m s → Below (b.transcript.data d).length s := by
  induction ms generalizing b with
  | nil => cases h; exact ⟨rfl, fun _ h => nomatch h⟩
  | cons m ms ih =>
    unfold commitMessages at h
    cases h1 : commitMessage w d b m with
    | error e => rw [h1] at h; cases h
    | ok b1 =>
      rw [h1] at h
      rw [commitMessage_eq] at h1
      obtain ⟨t, -, hb, -⟩ := commitSets_ok h1
      obtain ⟨t2, hb2⟩ := ih h
      rw [t] at t2 hb2
      refine ⟨t2, fun x hx s hs => ?_⟩
      rcases List.mem_cons.1 hx with rfl | hx
      · exact hb s ((messageSets_mem w x s).2 hs)
      · exact hb2 x hx s hs

/-! ## The properties -/

/-- **C142** When committing to the messages of a session fails, the error names the kind of the first message that does not fit, and a part
of it with a position outside of the bytes of that direction.  All earlier messages lie in the transcript.  The error never carries the
number of the message. -/
theorem C142_error (w : ArrayFrame) (b : CommitBuilder) (requests responses : List HttpMessage) (e : HttpCommitError)
    (h : httpTranscript w b requests responses = .error e) :
    e.index = none ∧
    (e.kind = .response → ∀ m ∈ requests, ∀ s, MessagePart w m s → ∀ i ∈ s, i < b.transcript.sent.length) ∧
    ∃ pre m post idx, (match e.kind with | .request => requests | .response => responses) = pre ++ m :: post ∧
      (∀ m' ∈ pre, ∀ s, MessagePart w m' s → ∀ i ∈ s, i < (b.transcript.data e.kind.direction).length) ∧
      Named w m e.part idx ∧ ∃ i ∈ idx, (b.transcript.data e.kind.direction).length ≤ i := by
  unfold httpTranscript at h
  cases h1 : httpMessages .request w .sent b requests with
  | error e' =>
    rw [h1] at h; cases h
    obtain ⟨a1, a2, pre, m, post, idx, a3, a4, -, a6, a7⟩ := messages_err h1
    rw [a2]
    exact ⟨a1, (fun h => nomatch h), pre, m, post, idx, a3, a4, a6, a7⟩
  | ok b1 =>
    rw [h1] at h
    have hc := sourceOf_messages .request w .sent b requests
    rw [h1] at hc
    obtain ⟨t, hb⟩ := messages_below hc.symm
    obtain ⟨a1, a2, pre, m, post, idx, a3, a4, -, a6, a7⟩ := messages_err h
    rw [a2]
    rw [t] at a4 a7
    exact ⟨a1, fun _ => hb, pre, m, post, idx, a3, a4, a6, a7⟩

/-- **C142** The precise messages are for messages whose parts stick out of them only: when the parts of every message lie in the message, the
error says that the entire message could not be committed to. -/
theorem C142_entire (w : ArrayFrame) (b : CommitBuilder) (requests responses : List HttpMessage) (e : HttpCommitError)
    (hin : ∀ m ∈ requests ++ responses, ∀ part s, Named w m part s → s ⊆ m.span)
    (h : httpTranscript w b requests responses = .error e) : e.part = .entire := by
  have key : ∀ kind d (b : CommitBuilder) ms, (∀ m ∈ ms, ∀ part s, Named w m part s → s ⊆ m.span) →
      httpMessages kind w d b ms = .error e → e.part = .entire := by
    intro kind d b ms hin h
    obtain ⟨-, -, pre, m, post, idx, a3, -, a5, a6, i, hi, hl⟩ := messages_err h
    by_contra hne
    have := a5 hne i (hin m (by rw [a3]; simp) _ _ a6 i hi)
    omega
  unfold httpTranscript at h
  cases h1 : httpMessages .request w .sent b requests with
  | error e' => rw [h1] at h; cases h; exact key _ _ _ _ (fun m hm => hin m (by simp [hm])) h1
  | ok b1 => rw [h1] at h; exact key _ _ _ _ (fun m hm => hin m (by simp [hm])) h

/-- **C142** The source of the error is the error of the builder, and the committed positions do not depend on how errors are told. -/
theorem C142_source (w : ArrayFrame) (b : CommitBuilder) (requests responses : List HttpMessage) :
    (∀ b', httpTranscript w b requests responses = .ok b' ↔ commitTranscript w b requests responses = .ok b') ∧
    ∀ e, httpTranscript w b requests responses = .error e → commitTranscript w b requests responses = .error e.source := by
  have h : sourceOf (httpTranscript w b requests responses) = commitTranscript w b requests responses := by
    unfold httpTranscript commitTranscript
    rw [← sourceOf_messages .request]
    cases httpMessages .request w .sent b requests with
    | error e => rfl
    | ok b1 => exact sourceOf_messages _ _ _ _ _
  rw [← h]
  cases httpTranscript w b requests responses with
  | ok x => exact ⟨fun b' => ⟨fun h => by cases h; rfl, fun h => by cases h; rfl⟩, fun e h => nomatch h⟩
  | error x => exact ⟨fun b' => ⟨(fun h => nomatch h), (fun h => nomatch h)⟩, fun e h => by cases h; rfl⟩

/-- The second of two requests has a header that sticks out of it and of the transcript. -/
def exSticking : HttpMessage := { exRequest with headers := [⟨sp 20 40, txt "Host", sp 22 23⟩] }

/-- The error, if there is one. -/
def failure {α : Type} : Except HttpCommitError α → Option HttpCommitError
  | .ok _ => none
  | .error e => some e

/-- C142 on sessions: a transcript that is too short for the response, and the header that sticks out. -/
example :
    failure (httpTranscript exFrame (CommitBuilder.new ⟨List.replicate 27 0, List.replicate 75 0⟩) [exRequest] [exResponse]) =
      some ⟨none, .response, .entire, .index⟩ ∧
    failure (httpTranscript exFrame (CommitBuilder.new exTranscript) [exRequest, exSticking] [exResponse]) =
      some ⟨none, .request, .header (txt "Host"), .index⟩ := by decide +kernel

/-- C142: the error does not tell which of the messages it is about. -/
example :
    failure (httpTranscript exFrame (CommitBuilder.new exTranscript) [exRequest, exSticking] []) =
      failure (httpTranscript exFrame (CommitBuilder.new exTranscript) [exSticking, exRequest] []) := by decide +kernel

/-- The hypothesis of `C142_entire` holds of the request, with a transcript that is too short for it. -/
example : (∀ m ∈ [exRequest] ++ [], ∀ part s, Named exFrame m part s → s ⊆ m.span) ∧
    (failure (httpTranscript exFrame (CommitBuilder.new ⟨List.replicate 26 0, []⟩) [exRequest] [])).isSome = true := by
  refine ⟨?_, by decide +kernel⟩
  intro m hm part s h i hi
  simp only [List.append_nil, List.mem_singleton] at hm
  subst hm
  have hh : ∀ h ∈ exRequest.headers, i ∈ h.span → i ∈ exRequest.span := by
    intro h hh hi
    simp only [exRequest, List.mem_singleton] at hh ⊢
    subst hh
    simp only [mem_sp] at hi ⊢
    omega
  cases h with
  | entire => exact hi
  | withoutData _ h => exact ((h i).1 hi).1
  | target h => cases h; simp only [exRequest, mem_sp] at hi ⊢; omega
  | header h => exact hh _ h hi
  | headerWithoutValue h _ hj => exact hh _ h ((hj i).1 hi).1
  | json h => cases h
  | body h => cases h

theorem msg_quote (name rest : List Char) : ("failed to commit to \"".toList ++ name ++ rest)[20]? = some '"' := by
  rw [List.append_assoc, List.getElem?_append_left (by decide +kernel)]
  decide +kernel

theorem msg_last (pre rest : List Char) (c : Char) (h : rest.getLast? = some c) : (pre ++ rest).getLast? = some c := by
  rw [List.getLast?_append, h]; rfl

theorem HttpPart.msg_header (kind : MessageKind) (name : Text) :
    ((HttpPart.header name).msg kind)[20]? = some '"' ∧ ((HttpPart.header name).msg kind).getLast? = some 'r' := by
  cases kind <;> exact ⟨msg_quote _ _, msg_last _ _ _ (by decide +kernel)⟩

theorem HttpPart.msg_headerWithoutValue (kind : MessageKind) (name : Text) :
    ((HttpPart.headerWithoutValue name).msg kind)[20]? = some '"' ∧
      ((HttpPart.headerWithoutValue name).msg kind).getLast? = some 'e' := by
  cases kind <;> exact ⟨msg_quote _ _, msg_last _ _ _ (by decide +kernel)⟩

/-- **C142** Two parts of a message of the same kind have different messages, whatever the names of the headers are. -/
theorem C142_text (kind : MessageKind) (p q : HttpPart) (h : p.msg kind = q.msg kind) : p = q := by
  have h20 := congrArg (fun l : List Char => l[20]?) h
  have hl := congrArg (fun l : List Char => l.getLast?) h
  cases p <;> cases q
  case header.header n n' =>
    have : n = n' := by
      cases kind <;> exact List.append_cancel_left (List.append_cancel_right h)
    rw [this]
  case headerWithoutValue.headerWithoutValue n n' =>
    have : n = n' := by
      cases kind <;> exact List.append_cancel_left (List.append_cancel_right h)
    rw [this]
  case header.headerWithoutValue n n' =>
    rw [(HttpPart.msg_header kind n).2, (HttpPart.msg_headerWithoutValue kind n').2] at hl
    exact absurd hl (by decide)
  case headerWithoutValue.header n n' =>
    rw [(HttpPart.msg_header kind n').2, (HttpPart.msg_headerWithoutValue kind n).2] at hl
    exact absurd hl (by decide)
  all_goals first
    | rfl
    | (clear h20 hl; revert h; cases kind <;> decide +kernel)
    | (rw [(HttpPart.msg_header kind _).1] at h20; clear h hl; revert h20; cases kind <;> exact fun h => absurd h (by decide +kernel))
    | (rw [(HttpPart.msg_headerWithoutValue kind _).1] at h20; clear h hl; revert h20
       cases kind <;> exact fun h => absurd h (by decide +kernel))

end Tlsn.Sdk
