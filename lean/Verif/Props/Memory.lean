/- Property C06: memory and configuration helpers. -/
import Verif.Env.MemoryProofs

namespace Verif.Props
open Verif Memory Config

/-- C06 (memory): equality, hash and copy, for every memory, address and length.
Copy needs disjoint ranges, as the `restrict` qualifiers demand. -/
theorem C06_memory_helpers (m : Mem) (a b n : Nat) :
    (memEq m a b n = true ↔ ∀ i < n, m (a + i) = m (b + i)) ∧
    ((∀ i < n, m (a + i) = m (b + i)) → hash m a n = hash m b n) ∧
    (∀ m' : Mem, (∀ i < n, m' (a + i) = m (a + i)) → hash m' a n = hash m a n) ∧
    ((a + n ≤ b ∨ b + n ≤ a) →
      (∀ i < n, copy m a b n (b + i) = m (a + i)) ∧
      (∀ x, x < b ∨ b + n ≤ x → copy m a b n x = m x)) := by
  refine ⟨?_, ?_, ?_, ?_⟩
  · rw [memEq_iff, bytesAt_eq_iff]
  · intro h; exact hash_congr m m a b n ((bytesAt_eq_iff ..).2 h)
  · intro m' h; exact hash_congr m' m a a n ((bytesAt_eq_iff ..).2 h)
  · intro hd
    obtain ⟨h1, h2⟩ := copyLoop_spec a b n 0 m (by intro i hi j hj; omega)
    constructor
    · intro i hi; simpa [copy] using h1 i hi
    · intro x hx; exact h2 x (by intro i hi; omega)

/-- The hash really uses all three remainder paths. -/
example : hash (fun a => UInt8.ofNat (a + 1)) 0 7 =
    mix (mix (mix 0 0x04030201) 0x0605) 0x07 := by
  have e : hashWords (fun a => UInt8.ofNat (a + 1)) 0 0 7 = (mix 0 0x04030201, 4, 3) := by
    rw [hashWords, if_pos (by omega), hashWords, if_neg (by omega)]; rfl
  simp only [Memory.hash, e]; rfl

/-- What a table lookup should return: the value of the first entry with that name. -/
def lookup (items : List (List UInt8 × Nat)) (name : List UInt8) : Option Nat :=
  (items.find? (fun e => decide (e.1 = name))).map Prod.snd

/-- C06 (configuration): lookups return the first entry with exactly that name;
each sized variant succeeds exactly when that value is within the type's range
and then returns it unchanged. For every table and name (C strings have no
embedded NUL; values are 64-bit). -/
theorem C06_config_helpers (items : List (List UInt8 × Nat)) (name : List UInt8)
    (hi : ∀ e ∈ items, 0 ∉ e.1) (hn : 0 ∉ name) (hv : ∀ e ∈ items, e.2 < 2 ^ 64) :
    tryGet items name = some (lookup items name) ∧
    getU64 items name = some (lookup items name) ∧
    getTime items name = some (lookup items name) ∧
    getU32 items name = some ((lookup items name).filter (· ≤ 0xFFFFFFFF)) ∧
    getU16 items name = some ((lookup items name).filter (· ≤ 0xFFFF)) ∧
    getSize items name = some ((lookup items name).filter (fun v => v * 64 ≤ 0xFFFFFFFFFFFFFFFF)) := by
  have ht := tryGet_eq items name hi hn
  change tryGet items name = some (lookup items name) at ht
  have hb : ∀ v, lookup items name = some v → v < 2 ^ 64 := by
    intro v h
    simp only [lookup, Option.map_eq_some_iff] at h
    obtain ⟨e, he, rfl⟩ := h
    exact hv e (List.mem_of_find?_eq_some he)
  simp only [getU64, getTime, getU32, getU16, getSize, Config.get, ht]
  cases hl : lookup items name with
  | none => simp
  | some v =>
    have := hb v hl
    simp only [Option.bind_eq_bind, Option.bind_some, ne_eq, not_true_eq_false, false_and, ↓reduceIte]
    refine ⟨trivial, ?_, ?_, ?_, ?_, ?_⟩
    · rw [if_pos (by omega)]; rfl
    · rw [if_pos (by omega)]; rfl
    · by_cases h : v ≤ 2 ^ 32 - 1
      · rw [if_pos h]; simp [Option.filter, show v ≤ 0xFFFFFFFF from h]; omega
      · rw [if_neg h]; simp [Option.filter]; omega
    · by_cases h : v ≤ 2 ^ 16 - 1
      · rw [if_pos h]; simp [Option.filter, show v ≤ 0xFFFF from h]; omega
      · rw [if_neg h]; simp [Option.filter]; omega
    · by_cases h : v ≤ (2 ^ 64 - 1) / 64
      · rw [if_pos h]; simp [Option.filter]; omega
      · rw [if_neg h]; simp [Option.filter]; omega

example : (∀ e ∈ [([97, 98], 5), ([97], 70000), ([97], 6)], (0 : UInt8) ∉ (e : List UInt8 × Nat).1) ∧
    lookup [([97, 98], 5), ([97], 70000), ([97], 6)] [97] = some 70000 ∧
    getU16 [([97, 98], 5), ([97], 70000), ([97], 6)] [97] = some none ∧
    getU16 [([97, 98], 5), ([97], 70000), ([97], 6)] [97, 98] = some (some 5) := by decide

/-- C06, generic bounded lookup: exact for a zero minimum, and for a positive
minimum below 2^63 on values below 2^63. -/
theorem C06_config_get_partial (items : List (List UInt8 × Nat)) (name : List UInt8) (min max : Nat)
    (hi : ∀ e ∈ items, 0 ∉ e.1) (hn : 0 ∉ name)
    (hmin : min < 2 ^ 63) (hv : min = 0 ∨ ∀ e ∈ items, e.2 < 2 ^ 63) :
    Config.get items name min max =
      some ((lookup items name).filter (fun v => min ≤ v ∧ v ≤ max)) := by
  have ht := tryGet_eq items name hi hn
  change tryGet items name = some (lookup items name) at ht
  have hb : ∀ v, lookup items name = some v → min = 0 ∨ v < 2 ^ 63 := by
    intro v h
    rcases hv with h0 | hv
    · exact .inl h0
    simp only [lookup, Option.map_eq_some_iff] at h
    obtain ⟨e, he, rfl⟩ := h
    exact .inr (hv e (List.mem_of_find?_eq_some he))
  simp only [Config.get, ht]
  cases hl : lookup items name with
  | none => simp
  | some v =>
    simp only [Option.bind_eq_bind, Option.bind_some]
    by_cases h0 : min = 0
    · subst h0; simp [Option.filter]
      split <;> simp_all
    · have hv63 := (hb v hl).resolve_left h0
      have e1 : toI64 v = v := by simp [toI64, hv63]
      have e2 : toI64 min = min := by simp [toI64, hmin]
      rw [e1, e2]
      by_cases h1 : v < min
      · rw [if_pos ⟨h0, by exact_mod_cast h1⟩]
        simp [Option.filter]; omega
      · rw [if_neg (by rintro ⟨_, h⟩; exact h1 (by exact_mod_cast h))]
        by_cases h2 : v ≤ max
        · rw [if_pos h2]; simp [Option.filter, h2]; omega
        · rw [if_neg h2]; simp [Option.filter, h2]

/-- Disagreement: with a non-zero minimum the generic lookup compares as signed
numbers, so it rejects an in-range value of 2^63 or more. -/
theorem C06_config_get_signed_minimum_disagrees :
    ∃ (items : List (List UInt8 × Nat)) (name : List UInt8) (v min max : Nat),
      lookup items name = some v ∧ min ≤ v ∧ v ≤ max ∧ max < 2 ^ 64 ∧
      Config.get items name min max = some none :=
  ⟨[([97], 2 ^ 63)], [97], 2 ^ 63, 1, 2 ^ 64 - 1, by decide, by decide, by decide, by decide, by decide⟩

end Verif.Props
