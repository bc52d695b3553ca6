/-!
# Basic vocabulary shared by all models

Rust bytes are `UInt8`, `usize` values are `Nat` (overflow of `usize` is out of scope
except where a definition says otherwise).  A Rust function that may panic returns
`Option` (`none` = panic) when it has no error result of its own and `Outcome` otherwise.
-/

namespace Tlsn

/-- A Rust `u8`. -/
abbrev Byte := UInt8

/-- A Rust `Vec<u8>` / `&[u8]`. -/
abbrev Bytes := List Byte

/-- Result of a Rust function returning `Result<α, ε>` which may also panic. -/
inductive Outcome (ε α : Type) where
  | ok (a : α)
  | err (e : ε)
  | panic
  deriving DecidableEq, Repr

namespace Outcome
variable {ε α β : Type}

/-- Sequencing (`?` operator); panics and errors propagate. -/
def bind (x : Outcome ε α) (f : α → Outcome ε β) : Outcome ε β :=
  match x with
  | ok a => f a
  | err e => err e
  | panic => panic

instance : Monad (Outcome ε) where
  pure := ok
  bind := bind

@[simp] theorem bind_ok (a : α) (f : α → Outcome ε β) : (Outcome.ok a >>= f) = f a := rfl
@[simp] theorem bind_err (e : ε) (f : α → Outcome ε β) :
    ((Outcome.err e : Outcome ε α) >>= f) = .err e := rfl
@[simp] theorem bind_panic (f : α → Outcome ε β) :
    ((Outcome.panic : Outcome ε α) >>= f) = .panic := rfl
@[simp] theorem pure_eq (a : α) : (pure a : Outcome ε α) = .ok a := rfl

theorem bind_eq_ok {x : Outcome ε α} {f : α → Outcome ε β} {b : β} :
    (x >>= f) = .ok b ↔ ∃ a, x = .ok a ∧ f a = .ok b := by
  cases x <;> simp

/-- Lift a panicking computation without error result. -/
def ofPanic : Option α → Outcome ε α
  | some a => ok a
  | none => panic

@[simp] theorem ofPanic_some (a : α) : (ofPanic (some a) : Outcome ε α) = .ok a := rfl
@[simp] theorem ofPanic_none : (ofPanic none : Outcome ε α) = .panic := rfl

end Outcome

/-- `&l[lo..hi]`: panics (`none`) unless `lo ≤ hi ≤ l.len()`. -/
def slice {α : Type} (l : List α) (lo hi : Nat) : Option (List α) :=
  if lo ≤ hi ∧ hi ≤ l.length then some ((l.take hi).drop lo) else none

/-- `dst[off..off+src.len()].copy_from_slice(src)`: panics (`none`) when out of bounds. -/
def writeAt {α : Type} (dst : List α) (off : Nat) (src : List α) : Option (List α) :=
  if off + src.length ≤ dst.length then
    some (dst.take off ++ src ++ dst.drop (off + src.length))
  else none

theorem slice_eq_some {α : Type} {l r : List α} {lo hi : Nat} :
    slice l lo hi = some r ↔ lo ≤ hi ∧ hi ≤ l.length ∧ r = (l.take hi).drop lo := by
  unfold slice; split <;> simp_all [eq_comm] 
  intro a b; omega

theorem slice_isSome {α : Type} {l : List α} {lo hi : Nat} (h : lo ≤ hi) (h2 : hi ≤ l.length) :
    slice l lo hi = some ((l.take hi).drop lo) := by
  simp [slice, h, h2]

theorem writeAt_length {α : Type} {dst src r : List α} {off : Nat}
    (h : writeAt dst off src = some r) : r.length = dst.length := by
  unfold writeAt at h; split at h
  · simp only [Option.some.injEq] at h; subst h; simp; omega
  · simp at h

theorem writeAt_bound {α : Type} {dst src r : List α} {off : Nat}
    (h : writeAt dst off src = some r) : off + src.length ≤ dst.length := by
  unfold writeAt at h; split at h
  · assumption
  · simp at h

theorem writeAt_getElem? {α : Type} {dst src r : List α} {off : Nat}
    (h : writeAt dst off src = some r) (i : Nat) :
    r[i]? = if off ≤ i ∧ i < off + src.length then src[i - off]? else dst[i]? := by
  unfold writeAt at h; split at h
  case isFalse => simp at h
  case isTrue hb =>
    simp only [Option.some.injEq] at h; subst h
    simp only [List.append_assoc, List.getElem?_append, List.length_take]
    have : min off dst.length = off := by omega
    rw [this]
    by_cases h1 : i < off
    · simp [h1]
      omega
    · by_cases h2 : i < off + src.length
      · have h3 : i - off < src.length := by omega
        have h4 : off ≤ i := by omega
        simp [h1, h2, h3, h4]
      · have h3 : ¬ (i - off < src.length) := by omega
        simp only [h1, h3, if_false, List.getElem?_drop]
        rw [if_neg (by omega)]
        congr 1; omega

theorem slice_getElem? {α : Type} {l r : List α} {lo hi : Nat}
    (h : slice l lo hi = some r) (i : Nat) :
    r[i]? = if lo + i < hi then l[lo + i]? else none := by
  obtain ⟨h1, h2, rfl⟩ := slice_eq_some.1 h
  simp [List.getElem?_drop, List.getElem?_take]

theorem slice_length {α : Type} {l r : List α} {lo hi : Nat}
    (h : slice l lo hi = some r) : r.length = hi - lo := by
  obtain ⟨h1, h2, rfl⟩ := slice_eq_some.1 h
  simp; omega

end Tlsn
