import Verif.Sdk.Http

/-! # Which events are logged (C124)

crates/sdk-core/src/logging.rs and crates/wasm/src/log.rs.  The subscriber of `tracing` asks the filter about each event and passes on
those for which it returns true; the layer behind it has the maximal level `TRACE` and passes on everything. -/

namespace Tlsn.Sdk

/-! ## Model -/

/-- crates/sdk-core/src/logging.rs:13-27 and crates/wasm/src/log.rs:17-27 `LoggingLevel`. -/
inductive LoggingLevel where
  | off
  | trace
  | debug
  | info
  | warn
  | error
  deriving DecidableEq, Repr

/-- `tracing::Level`, the level of an event. -/
inductive Level where
  | trace
  | debug
  | info
  | warn
  | error
  deriving DecidableEq, Repr

/-- The order of `tracing::Level`: a level is smaller if it is less verbose. -/
def Level.rank : Level → Nat
  | .error => 0
  | .warn => 1
  | .info => 2
  | .debug => 3
  | .trace => 4

/-- crates/sdk-core/src/logging.rs:31-33 `is_off`. -/
def LoggingLevel.isOff : LoggingLevel → Bool
  | .off => true
  | _ => false

/-- crates/sdk-core/src/logging.rs:36-48 `Level::from`. -/
def LoggingLevel.toLevel : LoggingLevel → Level
  | .off => .error
  | .trace => .trace
  | .debug => .debug
  | .info => .info
  | .warn => .warn
  | .error => .error

/-- crates/sdk-core/src/logging.rs:52-59 `SpanEvent`. -/
inductive SpanEvent where
  | new
  | close
  | active
  deriving DecidableEq, Repr

/-- crates/sdk-core/src/logging.rs:83-89 `CrateLogFilter`. -/
structure CrateLogFilter where
  level : LoggingLevel
  name : Text
  deriving DecidableEq, Repr

/-- crates/sdk-core/src/logging.rs:72-80 `LoggingConfig`; the types of crates/wasm/src/log.rs:29-50 have the same fields, and the conversions of 56-98 keep them. -/
structure LoggingConfig where
  level : Option LoggingLevel := none
  crateFilters : Option (List CrateLogFilter) := none
  spanEvents : Option (List SpanEvent) := none
  deriving DecidableEq, Repr

/-- `str::split("::").next()`: the text up to the first `::`. -/
def firstSegment : Text → Text
  | ':' :: ':' :: _ => []
  | c :: cs => c :: firstSegment cs
  | [] => []

/-- `char::to_ascii_lowercase`. -/
def asciiLower (c : Char) : Char := if 'A' ≤ c ∧ c ≤ 'Z' then Char.ofNat (c.toNat + 32) else c

/-- `str::eq_ignore_ascii_case`. -/
def eqIgnoreAsciiCase (a b : Text) : Bool := a.map asciiLower == b.map asciiLower

/-- crates/sdk-core/src/logging.rs:96-126 `filter`; an event is given by its target and its level. -/
def logFilter (config : LoggingConfig) (target : Text) (level : Level) : Bool :=
  let default := config.level.getD .info
  let filters := (config.crateFilters.getD []).map fun f => (f.name, f.level)
  let crateName := firstSegment target
  let logging := (filters.findSome? fun f => if eqIgnoreAsciiCase crateName f.1 then some f.2 else none).getD default
  if logging.isOff then false
  else level.rank ≤ logging.toLevel.rank

/-- crates/wasm/src/log.rs:104-119: the filter that is installed for a JavaScript program, which may give no configuration. -/
def initLogging (config : Option LoggingConfig) : Text → Level → Bool := logFilter (config.getD {})

/-! ## Specification -/

/-- The crate of a target such as `tlsn_core::transcript`: what is before the first `::`, or all of it. -/
def CrateOf (target name : Text) : Prop :=
  (target = name ∧ ¬ [':', ':'] <:+: name) ∨ ∃ rest, target = name ++ [':', ':'] ++ rest ∧ ¬ [':', ':'] <:+: name ++ [':']

/-- The two forms of the letter with number `i` of the Latin alphabet. -/
def letterForms (i : Nat) : List Char := [Char.ofNat (65 + i), Char.ofNat (97 + i)]

/-- The same up to the case of the letters `A` to `Z`. -/
def SameLetters (a b : Text) : Prop :=
  a.length = b.length ∧ ∀ (k : Nat) (x y : Char), a[k]? = some x → b[k]? = some y →
    x = y ∨ ∃ i, i < 26 ∧ x ∈ letterForms i ∧ y ∈ letterForms i

/-- The levels of the events that a configured level lets through. -/
def LoggingLevel.lets : LoggingLevel → List Level
  | .off => []
  | .error => [.error]
  | .warn => [.error, .warn]
  | .info => [.error, .warn, .info]
  | .debug => [.error, .warn, .info, .debug]
  | .trace => [.error, .warn, .info, .debug, .trace]

/-- The level that governs a crate: that of the first filter with the name of the crate; without one, the global level, which is
`Info` if it is not given. -/
inductive Governs (config : LoggingConfig) (crate : Text) : LoggingLevel → Prop
  | own (before after : List CrateLogFilter) (f : CrateLogFilter) (h : config.crateFilters = some (before ++ f :: after))
      (hf : SameLetters crate f.name) (hb : ∀ g ∈ before, ¬ SameLetters crate g.name) : Governs config crate f.level
  | global (h : ∀ fs, config.crateFilters = some fs → ∀ g ∈ fs, ¬ SameLetters crate g.name) (l : LoggingLevel)
      (hl : config.level = some l ∨ config.level = none ∧ l = .info) : Governs config crate l

/-! ## Lemmas -/

theorem crateOf_firstSegment (target : Text) : CrateOf target (firstSegment target) := by
  induction target using firstSegment.induct with
  | case1 tail => exact .inr ⟨tail, rfl, (by decide : ¬ [':', ':'] <:+: [':'])⟩
  | case2 c cs hne ih =>
    have key : ∀ x : Text, ¬ [':', ':'] <:+: x → (∀ r, c :: x ≠ ':' :: ':' :: r) → ¬ [':', ':'] <:+: c :: x := by
      intro x hx hr h
      rcases List.infix_cons_iff.1 h with ⟨r, hr'⟩ | h
      · exact hr r hr'.symm
      · exact hx h
    have hstart : ∀ x r, (∃ rest, cs = x ++ rest) → c :: x ≠ ':' :: ':' :: r := by
      rintro x r ⟨rest, rfl⟩ h
      obtain ⟨rfl, rfl⟩ := List.cons.inj h
      exact hne _ rfl rfl
    rw [firstSegment.eq_2 c cs hne]
    rcases ih with ⟨h1, h2⟩ | ⟨rest, h1, h2⟩
    · refine .inl ⟨by rw [← h1], key _ h2 fun r => hstart _ r ⟨[], ?_⟩⟩
      rw [List.append_nil]
      exact h1
    · refine .inr ⟨rest, ?_, key _ h2 fun r => hstart _ r ⟨':' :: rest, ?_⟩⟩
      · rw [List.cons_append, List.cons_append, ← h1]
      · exact h1.trans (by simp [List.append_assoc])
  | case3 => exact .inl ⟨rfl, by decide⟩

theorem crateOf_unique {target a b : Text} (ha : CrateOf target a) (hb : CrateOf target b) : a = b := by
  have aux : ∀ (x y r s : Text), x ++ [':', ':'] ++ r = y ++ [':', ':'] ++ s → ¬ [':', ':'] <:+: y ++ [':'] →
      ¬ [':', ':'] <:+: x ++ [':'] → x.length ≤ y.length → x = y := by
    intro x y r s h hy _ hl
    rw [List.append_assoc, List.append_assoc] at h
    obtain ⟨z, rfl⟩ : ∃ z, y = x ++ z := by
      refine ⟨y.drop x.length, ?_⟩
      have := congrArg (List.take x.length) h
      rw [List.take_left', List.take_append_of_le_length hl] at this
      · conv => lhs; rw [← List.take_append_drop x.length y, ← this]
      · rfl
    rw [List.append_assoc] at h
    have h := List.append_cancel_left h
    cases z with
    | nil => simp
    | cons c z =>
      obtain ⟨rfl, h'⟩ := List.cons.inj h
      cases z with
      | nil => exact absurd ⟨x, [], by simp⟩ hy
      | cons d z =>
        obtain ⟨rfl, -⟩ := List.cons.inj (show ':' :: r = d :: (z ++ ([':', ':'] ++ s)) from h')
        exact absurd ⟨x, z ++ [':'], by simp⟩ hy
  rcases ha with ⟨rfl, h1⟩ | ⟨r, rfl, h1⟩
  · rcases hb with ⟨rfl, -⟩ | ⟨s, h, -⟩
    · rfl
    · exact absurd ⟨b, s, h.symm⟩ h1
  · rcases hb with ⟨rfl, h2⟩ | ⟨s, h, h2⟩
    · exact absurd ⟨a, r, rfl⟩ h2
    · rcases Nat.le_total a.length b.length with hl | hl
      · exact aux a b r s h h2 h1 hl
      · exact (aux b a s r h.symm h1 h2 hl).symm

theorem asciiLower_eq (x y : Char) : asciiLower x = asciiLower y ↔ x = y ∨ ∃ i, i < 26 ∧ x ∈ letterForms i ∧ y ∈ letterForms i := by
  have hval : ∀ n, n < 0x110000 → ¬ (0xd800 ≤ n ∧ n < 0xe000) → (Char.ofNat n).toNat = n := by
    intro n h1 h2
    have : n.isValidChar := by
      rcases Nat.lt_or_ge n 0xd800 with h | h
      · exact .inl h
      · exact .inr ⟨by omega, h1⟩
    simp [Char.ofNat, this, Char.toNat, Char.ofNatAux]
  have hn : ∀ c : Char, Char.ofNat c.toNat = c := Char.ofNat_toNat
  have low : ∀ c : Char, (asciiLower c).toNat = if 65 ≤ c.toNat ∧ c.toNat ≤ 90 then c.toNat + 32 else c.toNat := by
    intro c
    have e : ('A' ≤ c ∧ c ≤ 'Z') ↔ (65 ≤ c.toNat ∧ c.toNat ≤ 90) := Iff.rfl
    unfold asciiLower
    by_cases h : 65 ≤ c.toNat ∧ c.toNat ≤ 90
    · rw [if_pos (e.2 h), if_pos h, hval _ (by omega) (by omega)]
    · rw [if_neg (fun h' => h (e.1 h')), if_neg h]
  have inj : ∀ a b : Char, a.toNat = b.toNat → a = b := fun a b h => by rw [← hn a, ← hn b, h]
  have mem : ∀ (c : Char) (i : Nat), i < 26 → (c ∈ letterForms i ↔ c.toNat = 65 + i ∨ c.toNat = 97 + i) := by
    intro c i hi
    simp only [letterForms, List.mem_cons, List.not_mem_nil, or_false]
    constructor
    · rintro (rfl | rfl)
      · exact .inl (hval _ (by omega) (by omega))
      · exact .inr (hval _ (by omega) (by omega))
    · rintro (h | h)
      · exact .inl (by rw [← h, hn])
      · exact .inr (by rw [← h, hn])
  constructor
  · intro h
    have h := congrArg Char.toNat h
    rw [low, low] at h
    by_cases hx : 65 ≤ x.toNat ∧ x.toNat ≤ 90 <;> by_cases hy : 65 ≤ y.toNat ∧ y.toNat ≤ 90
    · rw [if_pos hx, if_pos hy] at h
      exact .inl (inj _ _ (by omega))
    · rw [if_pos hx, if_neg hy] at h
      exact .inr ⟨x.toNat - 65, by omega, (mem _ _ (by omega)).2 (by omega), (mem _ _ (by omega)).2 (by omega)⟩
    · rw [if_neg hx, if_pos hy] at h
      exact .inr ⟨y.toNat - 65, by omega, (mem _ _ (by omega)).2 (by omega), (mem _ _ (by omega)).2 (by omega)⟩
    · rw [if_neg hx, if_neg hy] at h
      exact .inl (inj _ _ h)
  · rintro (rfl | ⟨i, hi, h1, h2⟩)
    · rfl
    · rw [mem _ _ hi] at h1 h2
      refine inj _ _ ?_
      rw [low, low]
      rcases h1 with h1 | h1 <;> rcases h2 with h2 | h2 <;> rw [h1, h2] <;> split <;> split <;> omega

theorem eqIgnoreAsciiCase_iff (a b : Text) : eqIgnoreAsciiCase a b = true ↔ SameLetters a b := by
  unfold eqIgnoreAsciiCase SameLetters
  rw [beq_iff_eq]
  constructor
  · intro h
    have hl : a.length = b.length := by simpa using congrArg List.length h
    refine ⟨hl, fun k x y hx hy => (asciiLower_eq x y).1 ?_⟩
    have := congrArg (fun l : Text => l[k]?) h
    simpa [hx, hy] using this
  · rintro ⟨hl, h⟩
    refine List.ext_getElem (by simpa using hl) fun k h1 h2 => ?_
    rw [List.length_map] at h1 h2
    rw [List.getElem_map, List.getElem_map]
    exact (asciiLower_eq _ _).2 (h k _ _ (List.getElem?_eq_getElem h1) (List.getElem?_eq_getElem h2))

theorem lets_iff (l : LoggingLevel) (e : Level) : e ∈ l.lets ↔ l.isOff = false ∧ e.rank ≤ l.toLevel.rank := by
  cases l <;> cases e <;> decide

theorem governs_iff (config : LoggingConfig) (crate : Text) (l : LoggingLevel) : Governs config crate l ↔
    (((config.crateFilters.getD []).map fun f => (f.name, f.level)).findSome? fun f =>
      if eqIgnoreAsciiCase crate f.1 then some f.2 else none).getD (config.level.getD .info) = l := by
  rw [List.findSome?_map]
  cases hfind : (config.crateFilters.getD []).findSome? ((fun f => if eqIgnoreAsciiCase crate f.1 then some f.2 else none) ∘
      fun f : CrateLogFilter => (f.name, f.level)) with
  | none =>
    rw [List.findSome?_eq_none_iff] at hfind
    have hn : ∀ g ∈ config.crateFilters.getD [], ¬ SameLetters crate g.name := by
      intro g hg hs
      have := hfind g hg
      simp [Function.comp, (eqIgnoreAsciiCase_iff _ _).2 hs] at this
    rw [Option.getD_none]
    constructor
    · intro h
      cases h with
      | own before after f h hf hb => exact absurd hf (hn f (by rw [h]; simp))
      | global h _ hl => rcases hl with hl | ⟨hl, rfl⟩ <;> rw [hl] <;> rfl
    · rintro rfl
      refine .global (fun fs hfs g hg => hn g (by rw [hfs]; exact hg)) _ ?_
      cases config.level with
      | none => exact .inr ⟨rfl, rfl⟩
      | some l => exact .inl rfl
  | some v =>
    rw [List.findSome?_eq_some_iff] at hfind
    obtain ⟨before, f, after, h1, h2, h3⟩ := hfind
    have hf : SameLetters crate f.name ∧ f.level = v := by
      simp only [Function.comp] at h2
      split at h2
      · rename_i hc
        exact ⟨(eqIgnoreAsciiCase_iff _ _).1 hc, Option.some.inj h2⟩
      · cases h2
    have hb : ∀ g ∈ before, ¬ SameLetters crate g.name := by
      intro g hg hs
      have := h3 g hg
      simp [Function.comp, (eqIgnoreAsciiCase_iff _ _).2 hs] at this
    have hc : config.crateFilters = some (before ++ f :: after) := by
      cases hcf : config.crateFilters with
      | none => rw [hcf] at h1; simp at h1
      | some fs => rw [hcf] at h1; rw [← h1]; rfl
    rw [Option.getD_some, ← hf.2]
    constructor
    · intro h
      cases h with
      | own before' after' f' h' hf' hb' =>
        rw [hc, Option.some.injEq] at h'
        rcases List.append_eq_append_iff.1 h' with ⟨z, e1, e2⟩ | ⟨z, e1, e2⟩
        · cases z with
          | nil => rw [List.nil_append, List.cons.injEq] at e2; rw [e2.1]
          | cons g z =>
            rw [List.cons_append, List.cons.injEq] at e2
            exact absurd hf.1 (hb' f (by rw [e1, e2.1]; simp))
        · cases z with
          | nil => rw [List.nil_append, List.cons.injEq] at e2; rw [e2.1]
          | cons g z =>
            rw [List.cons_append, List.cons.injEq] at e2
            exact absurd hf' (hb f' (by rw [e1, e2.1]; simp))
      | global h _ _ => exact absurd hf.1 (h _ hc f (by simp))
    · rintro rfl
      exact .own before after f hc hf.1 hb

/-! ## Properties -/

/-- **C124** An event is logged if and only if its level is one that the level for its crate lets through: the level of the first
filter that names the crate, in upper or lower case, or else the global level. -/
theorem C124_filter (config : LoggingConfig) (target : Text) (level : Level) :
    logFilter config target level = true ↔ ∃ crate l, CrateOf target crate ∧ Governs config crate l ∧ level ∈ l.lets := by
  have h : logFilter config target level = true ↔ ∀ l, Governs config (firstSegment target) l → level ∈ l.lets := by
    constructor
    · intro h l hl
      rw [governs_iff] at hl
      unfold logFilter at h
      simp only [hl] at h
      rw [lets_iff]
      cases ho : l.isOff <;> simp_all
    · intro h
      have := h _ ((governs_iff config (firstSegment target) _).2 rfl)
      rw [lets_iff] at this
      unfold logFilter
      simp only [this.1, Bool.false_eq_true, if_false, decide_eq_true_eq]
      exact this.2
  rw [h]
  constructor
  · intro h
    exact ⟨_, _, crateOf_firstSegment target, (governs_iff config _ _).2 rfl, h _ ((governs_iff config _ _).2 rfl)⟩
  · rintro ⟨crate, l, h1, h2, h3⟩ l' hl'
    rw [crateOf_unique h1 (crateOf_firstSegment target)] at h2
    rw [governs_iff] at h2 hl'
    rw [← hl', h2]
    exact h3

/-- **C124** The filter that is installed for a JavaScript program is the one of its configuration. -/
theorem C124_installed (config : LoggingConfig) (target : Text) (level : Level) :
    initLogging (some config) target level = true ↔ ∃ crate l, CrateOf target crate ∧ Governs config crate l ∧ level ∈ l.lets :=
  C124_filter config target level

/-- **C124** The crate of a target and the level that governs it exist and are unique, so that every event is decided. -/
theorem C124_determined (config : LoggingConfig) (target : Text) :
    ∃ crate l, (∀ c, CrateOf target c ↔ c = crate) ∧ ∀ l', Governs config crate l' ↔ l' = l := by
  refine ⟨firstSegment target, (((config.crateFilters.getD []).map fun f => (f.name, f.level)).findSome? fun f =>
    if eqIgnoreAsciiCase (firstSegment target) f.1 then some f.2 else none).getD (config.level.getD .info), fun c => ⟨fun h => crateOf_unique h (crateOf_firstSegment target), fun h => ?_⟩, fun l' => ?_⟩
  · rw [h]; exact crateOf_firstSegment target
  · rw [governs_iff]; exact eq_comm

/-- **C124** A JavaScript program that gives no configuration gets the events up to `Info`. -/
theorem C124_default (target : Text) (level : Level) : initLogging none target level = true ↔ level ∈ [.error, .warn, .info] := by
  show logFilter {} target level = true ↔ _
  simp only [logFilter, Option.getD_none, List.map_nil, List.findSome?_nil, LoggingLevel.isOff, Bool.false_eq_true, if_false]
  cases level <;> decide

/-- **C124** is false of the code for `span_events`, "which span lifecycle events to log": it has no effect, in no configuration. -/
theorem C124_span_events_ignored (config : LoggingConfig) (events : Option (List SpanEvent)) :
    initLogging (some { config with spanEvents := events }) = initLogging (some config) := rfl

/-- A filter for a crate, with and without the rest of the path; the first of two filters; a crate whose name only begins like the one
of the filter; and a filter that is off. -/
example :
    let config : LoggingConfig := ⟨some .warn, some [⟨.debug, "TLSN_core".toList⟩, ⟨.off, "tlsn_core".toList⟩, ⟨.off, "mpz".toList⟩], none⟩
    logFilter config "tlsn_core::transcript::proof".toList .debug = true ∧ logFilter config "tlsn_core".toList .debug = true ∧
    logFilter config "tlsn_core".toList .trace = false ∧ logFilter config "tlsn_core_ext".toList .debug = false ∧
    logFilter config "tlsn_core_ext".toList .warn = true ∧ logFilter config "mpz::ot".toList .error = false ∧
    logFilter config "tlsn_core:::x".toList .debug = true := by decide +kernel

end Tlsn.Sdk
