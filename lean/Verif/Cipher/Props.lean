import Verif.Cipher.Model
import Mathlib.Data.List.Nodup

/-! # C46: keystream material is used once -/

namespace Tlsn

theorem divCeil16_spec (n : Nat) : 16 * divCeil16 n < n + 16 ∧ n ≤ 16 * divCeil16 n := by
  simp only [divCeil16]; omega

/-- **C46** `consume` fails exactly if fewer than `len / 16` blocks, rounded up, are left; otherwise the
consumed blocks are the last ones, enough for `len` bytes with less than a block to spare, and together
with the remaining blocks they are the stream. -/
theorem C46_consume (k : Keystream) (len : Nat) :
    (k.consume len = none ↔ 16 * k.blocks.length < len) ∧
    ∀ rest got, k.consume len = some (rest, got) →
      rest.blocks ++ got.blocks = k.blocks ∧ len ≤ 16 * got.blocks.length ∧
        16 * got.blocks.length < len + 16 := by
  have h := divCeil16_spec len
  simp only [Keystream.consume]
  constructor
  · split <;> simp <;> omega
  · intro rest got
    split
    · simp
    · simp only [Option.some.injEq, Prod.mk.injEq]
      rintro ⟨rfl, rfl⟩
      simp only [List.take_append_drop, List.length_drop]
      exact ⟨trivial, by omega, by omega⟩

/-- **C46** Over every sequence of calls, successful or not, no block is handed out twice, every block
handed out is an allocated one, and a block that was handed out does not remain. -/
theorem C46_used_once (k : Keystream) (hk : k.blocks.Nodup) (lens : List Nat) :
    ((k.consumeAll lens).2.flatMap (·.blocks)).Nodup ∧
    (∀ got ∈ (k.consumeAll lens).2, ∀ b ∈ got.blocks, b ∈ k.blocks ∧ b ∉ (k.consumeAll lens).1.blocks) ∧
    (k.consumeAll lens).1.blocks.length + ((k.consumeAll lens).2.flatMap (·.blocks)).length
      = k.blocks.length := by
  have key : (((k.consumeAll lens).1.blocks ++ (k.consumeAll lens).2.flatMap (·.blocks))).Perm k.blocks := by
    clear hk
    induction lens generalizing k with
    | nil => simp [Keystream.consumeAll]
    | cons len lens ih =>
      simp only [Keystream.consumeAll]
      cases h : k.consume len with
      | none => exact ih k
      | some p =>
        obtain ⟨rest, got⟩ := p
        have h1 := ((C46_consume k len).2 rest got h).1
        simp only [List.flatMap_cons]
        rw [← h1]
        refine (List.perm_append_comm_assoc _ _ _).trans ?_
        exact (List.Perm.append_left _ (ih rest)).trans List.perm_append_comm
  have hn := (key.nodup_iff).2 hk
  rw [List.nodup_append] at hn
  refine ⟨hn.2.1, ?_, ?_⟩
  · intro got hg b hb
    have hm : b ∈ (k.consumeAll lens).2.flatMap (·.blocks) := List.mem_flatMap.2 ⟨got, hg, hb⟩
    exact ⟨key.mem_iff.1 (List.mem_append_right _ hm), fun h => hn.2.2 b h b hm rfl⟩
  · rw [← List.length_append]; exact key.length_eq

/-- **C46** The counters of one piece of keystream are consecutive: block `i` gets `start + i`. -/
theorem C46_assign (k : Keystream) (nonce : Bytes) (start i : Nat) :
    (k.assign nonce start)[i]? = (k.blocks[i]?).map fun id => (id, nonce, start + i) := by
  simp [Keystream.assign]

/-- Example for C46: three calls, the second of which fails. -/
example : (Keystream.mk [0, 1, 2, 3]).consumeAll [17, 100, 16] =
    (⟨[0]⟩, [⟨[2, 3]⟩, ⟨[1]⟩]) ∧ (Keystream.mk [0, 1, 2, 3]).blocks.Nodup := by decide

end Tlsn
