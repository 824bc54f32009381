/- Property C82: allocation on DPDK. -/
import Verif.Env.DpdkMemory
import Mathlib.Tactic.Ring
import Mathlib.Tactic.Linarith

set_option autoImplicit false

namespace Verif.Props

open Verif.DpdkMemory

private theorem align_of_pos {count size : Nat} (h0 : 0 < count * size) (h1 : count * size ≤ 2 ^ 63) :
    align count size = 2 ^ max 6 (Nat.clog 2 (count * size)) := by
  have e : count * size % 2 ^ 64 = count * size := Nat.mod_eq_of_lt (lt_of_le_of_lt h1 (by norm_num))
  have hn : ¬ (count * size = 0 ∨ 2 ^ 63 < count * size) := by omega
  unfold align align64pow2
  simp only [e, if_neg hn]
  by_cases h : Nat.clog 2 (count * size) < 6
  · rw [if_pos (by calc 2 ^ Nat.clog 2 (count * size) < 2 ^ 6 := Nat.pow_lt_pow_right (by norm_num) h
                     _ = 64 := rfl), max_eq_left (by omega)]
    rfl
  · rw [if_neg (by
      have : 2 ^ 6 ≤ 2 ^ Nat.clog 2 (count * size) := Nat.pow_le_pow_right (by norm_num) (by omega)
      omega), max_eq_right (by omega)]

/-- The alignment is always one that DPDK accepts. -/
theorem C82_power_of_two (count size : Nat) : (∃ k, align count size = 2 ^ k) ∧ 64 ≤ align count size := by
  unfold align align64pow2
  dsimp only
  by_cases h : count * size % 2 ^ 64 = 0 ∨ 2 ^ 63 < count * size % 2 ^ 64
  · rw [if_pos h]; exact ⟨⟨6, rfl⟩, Nat.le_refl _⟩
  · rw [if_neg h]
    by_cases h' : 2 ^ Nat.clog 2 (count * size % 2 ^ 64) < 64
    · rw [if_pos h']; exact ⟨⟨6, rfl⟩, Nat.le_refl _⟩
    · rw [if_neg h']; exact ⟨⟨_, rfl⟩, by omega⟩

/-- C82. A block that is returned starts at a multiple of a power of two that is at least its size, and lies in the address space; and if
the items' size is not a multiple of a cache line, and rounded up to one, which the contract of os_memory_alloc promises as alignment, is
a power of two, then it is aligned to that. What is missing: the promise that it never returns NULL, for
which it is false (`C82_null`), and other sizes, for which it is false (`C82_misaligned`). -/
theorem C82_aligned_partial (calloc : Nat → Nat → Nat → Nat) (hd : Documented calloc) (count size : Nat) (h0 : 0 < count * size) (h1 : count * size ≤ 2 ^ 63)
    (hr : alloc calloc count size ≠ 0) :
    alloc calloc count size + count * size < 2 ^ 64 ∧ alloc calloc count size % 64 = 0 ∧
    (∃ k, count * size ≤ 2 ^ k ∧ alloc calloc count size % 2 ^ k = 0) ∧
    ∀ k, size + 64 - size % 64 = 2 ^ k → size % 64 ≠ 0 → alloc calloc count size % (size + 64 - size % 64) = 0 := by
  obtain ⟨ha, hb⟩ := hd.aligned count size (align count size) hr
  rw [align_of_pos h0 h1] at ha
  have ha : alloc calloc count size % 2 ^ max 6 (Nat.clog 2 (count * size)) = 0 := by
    have : alloc calloc count size = calloc count size (2 ^ max 6 (Nat.clog 2 (count * size))) := by unfold alloc; rw [align_of_pos h0 h1]
    rw [this]; exact ha
  have hdvd : ∀ k, k ≤ max 6 (Nat.clog 2 (count * size)) → alloc calloc count size % 2 ^ k = 0 := fun k hk =>
    Nat.mod_eq_zero_of_dvd ((Nat.pow_dvd_pow 2 hk).trans (Nat.dvd_of_mod_eq_zero ha))
  refine ⟨hb, hdvd 6 (le_max_left _ _), ⟨_, Nat.le_pow_clog (by norm_num) _, hdvd _ (le_max_right _ _)⟩, fun k hk hs => ?_⟩
  rw [hk]
  refine hdvd k ?_
  by_contra hlt
  rw [not_le, max_lt_iff] at hlt
  have hle : size ≤ count * size := Nat.le_mul_of_pos_left _ (Nat.pos_of_mul_pos_right h0)
  have h2 : count * size ≤ 2 ^ Nat.clog 2 (count * size) := Nat.le_pow_clog (by norm_num) _
  have h3 : 2 * 2 ^ (k - 1) = 2 ^ k := by rw [← pow_succ']; congr 1; omega
  have h4 : 2 ^ Nat.clog 2 (count * size) ≤ 2 ^ (k - 1) := Nat.pow_le_pow_right (by norm_num) (by omega)
  have h5 : 64 ∣ 2 ^ (k - 1) := by
    have : 2 ^ 6 ∣ 2 ^ (k - 1) := Nat.pow_dvd_pow 2 (by omega)
    simpa using this
  omega

/-- A calloc that is as documented: a block at its alignment, for three alignments. -/
private def calloc1 (c s a : Nat) : Nat := if c * s = 0 ∨ 2 ^ 20 < c * s ∨ ¬ (a = 64 ∨ a = 128 ∨ a = 4096) then 0 else a

private theorem calloc1_documented : Documented calloc1 := by
  refine ⟨fun c s a h => by simp [calloc1, h], fun c s a h => ?_, fun c s a h => ?_⟩
  · unfold calloc1
    rw [if_pos]
    refine .inr (.inr fun hd => h ?_)
    rcases hd with rfl | rfl | rfl
    · exact ⟨6, rfl⟩
    · exact ⟨7, rfl⟩
    · exact ⟨12, rfl⟩
  · unfold calloc1 at h ⊢
    split at h
    · exact absurd rfl h
    · rename_i hn
      rw [if_neg hn]
      simp only [not_or, not_lt] at hn
      exact ⟨Nat.mod_self _, by omega⟩

/-- `C82_aligned_partial` applies to 100 items of 40 bytes. -/
example : Documented calloc1 ∧ 0 < 100 * 40 ∧ 100 * 40 ≤ 2 ^ 63 ∧ 40 + 64 - 40 % 64 = 2 ^ 6 ∧ alloc calloc1 100 40 ≠ 0 := by
  refine ⟨calloc1_documented, by norm_num, by norm_num, by norm_num, ?_⟩
  have : align 100 40 = 2 ^ 12 := by
    rw [align_of_pos (by norm_num) (by norm_num)]
    have : Nat.clog 2 (100 * 40) = 12 := by decide
    rw [this]; rfl
  unfold alloc
  rw [this]
  norm_num [calloc1]

/-- False: os_memory_alloc promises never to return NULL and to crash instead. On DPDK it returns NULL whenever nothing is asked for, and a
DPDK without memory is as documented, for which it always returns NULL. -/
theorem C82_null : (∀ calloc, Documented calloc → ∀ count size, count * size = 0 → alloc calloc count size = 0) ∧
    ∃ calloc, Documented calloc ∧ ∀ count size, alloc calloc count size = 0 :=
  ⟨fun _ hd _ _ h => hd.nothing _ _ _ h, fun _ _ _ => 0, ⟨fun _ _ _ _ => rfl, fun _ _ _ _ => rfl, fun _ _ _ h => absurd rfl h⟩, fun _ _ => rfl⟩

/-- False: for one item of 64 bytes the promised alignment is 128, and DPDK is asked for 64, so that a block at 64 is as documented. For one
of 128 bytes the promised alignment is 192, and a block at 128 is as documented. -/
theorem C82_misaligned : ∃ calloc, Documented calloc ∧ alloc calloc 1 64 = 64 ∧ 64 % (64 + 64 - 64 % 64) ≠ 0 ∧
    alloc calloc 1 128 = 128 ∧ 128 % (128 + 64 - 128 % 64) ≠ 0 := by
  have h1 : align 1 64 = 64 := by
    rw [align_of_pos (by norm_num) (by norm_num), show Nat.clog 2 (1 * 64) = 6 by decide]; rfl
  have h2 : align 1 128 = 128 := by
    rw [align_of_pos (by norm_num) (by norm_num), show Nat.clog 2 (1 * 128) = 7 by decide]; rfl
  refine ⟨calloc1, calloc1_documented, ?_, by norm_num, ?_, by norm_num⟩
  · unfold alloc; rw [h1]; norm_num [calloc1]
  · unfold alloc; rw [h2]; norm_num [calloc1]

end Verif.Props
