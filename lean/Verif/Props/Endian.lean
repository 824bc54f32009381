/- Property C50: byte-order helpers and sleeping. -/
import Verif.Env.Endian

set_option autoImplicit false

namespace Verif.Props
open Verif.Endian (swap16 swap32 swap64)
open Verif.Clock (sleep timeNs)

/-- Byte `i` of a value, least significant first. -/
def byteOf {w : Nat} (v : BitVec w) (i : Nat) : Nat := v.toNat / 256 ^ i % 256

/-- Reversing the bytes: byte `i` of the result is byte `n-1-i` of the argument. -/
def ReversesBytes {w : Nat} (n : Nat) (f : BitVec w → BitVec w) : Prop :=
  ∀ v i, i < n → byteOf (f v) i = byteOf v (n - 1 - i)

theorem byteOf_eq {w : Nat} (v : BitVec w) (i : Nat) : byteOf v i = (v.extractLsb' (8 * i) 8).toNat := by
  simp only [byteOf, BitVec.extractLsb'_toNat, Nat.shiftRight_eq_div_pow]
  rw [show (256 : Nat) ^ i = 2 ^ (8 * i) by rw [pow_mul]; rfl]

/-- The 16-bit conversion reverses the bytes and is its own inverse. Missing: the 32- and
64-bit conversions, for which this is false. -/
theorem C50_swap16_partial : ReversesBytes 2 swap16 ∧ ∀ v, swap16 (swap16 v) = v := by
  constructor
  · intro v i hi
    rw [byteOf_eq, byteOf_eq]
    congr 1
    have : i = 0 ∨ i = 1 := by omega
    rcases this with rfl | rfl
    · ext j hj
      simp [swap16, hj, show j < 16 by omega, show 8 + j < 32 by omega]
    · ext j hj
      simp [swap16, show 8 + j < 16 by omega, show 8 + j < 32 by omega]
      rw [BitVec.getLsbD_of_ge v (8 + (8 + j)) (by omega), Bool.and_false, Bool.or_false, BitVec.getLsbD_eq_getElem]
  · intro v
    ext j hj
    simp [swap16]
    by_cases h : j < 8
    · simp [h, show 8 + j < 16 by omega, show 8 + j < 32 by omega]
      rw [BitVec.getLsbD_of_ge v (8 + (8 + j)) (by omega), Bool.and_false, Bool.or_false, BitVec.getLsbD_eq_getElem]
    · simp [h, show 8 + (j - 8) = j by omega, show j - 8 < 8 by omega, show ¬ (8 + j < 16) by omega, show j < 32 by omega]
      rw [BitVec.getLsbD_eq_getElem]

/-- False for 32 bits: the middle bytes are lost. -/
theorem C50_swap32_wrong : ¬ ReversesBytes 4 swap32 ∧ ¬ (∀ v, swap32 (swap32 v) = v) := by
  constructor
  · intro h
    exact absurd (h 0x0000AB00#32 2 (by omega)) (by decide)
  · intro h
    exact absurd (h 0x0000AB00#32) (by decide)

/-- False for 64 bits. -/
theorem C50_swap64_wrong : ¬ ReversesBytes 8 swap64 ∧ ¬ (∀ v, swap64 (swap64 v) = v) := by
  constructor
  · intro h
    exact absurd (h 0x000000000000AB00#64 6 (by omega)) (by decide)
  · intro h
    exact absurd (h 0x000000000000AB00#64) (by decide)

/-- What the 32-bit conversion computes: the first byte arrives, the second and last are merged, and the third is lost. -/
theorem C50_swap32_value (v : BitVec 32) : byteOf (swap32 v) 3 = byteOf v 0 ∧ byteOf (swap32 v) 2 = 0 ∧ byteOf (swap32 v) 1 = 0 ∧
    byteOf (swap32 v) 0 = byteOf v 1 ||| byteOf v 3 := by
  have hm : ∀ j, j < 32 → (0xFF#32 : BitVec 32).getLsbD j = decide (j < 8) := by
    have : ∀ j : Fin 32, (0xFF#32 : BitVec 32).getLsbD j = decide (j.val < 8) := by decide
    exact fun j hj => this ⟨j, hj⟩
  have hb : ∀ j, j < 32 → (swap32 v).getLsbD j = if j < 8 then v.getLsbD (8 + j) || v.getLsbD (24 + j) else if j < 24 then false else v.getLsbD (j - 24) := by
    intro j hj
    simp only [swap32, BitVec.getLsbD_or, BitVec.getLsbD_and, BitVec.getLsbD_shiftLeft, BitVec.getLsbD_ushiftRight, hm j hj]
    by_cases h1 : j < 8
    · simp [h1, show j < 24 by omega]
    · by_cases h2 : j < 24
      · simp [h1, h2, BitVec.getLsbD_of_ge v (24 + j) (by omega)]
      · simp [h1, h2, hj, BitVec.getLsbD_of_ge v (24 + j) (by omega)]
  simp only [byteOf_eq]
  refine ⟨?_, ?_, ?_, ?_⟩
  · congr 1
    ext j hj
    simp only [← BitVec.getLsbD_eq_getElem, BitVec.getLsbD_extractLsb', hj, decide_true, Bool.true_and]
    rw [hb _ (by omega), if_neg (by omega), if_neg (by omega)]
    congr 1; omega
  · rw [show (0 : Nat) = (0#8 : BitVec 8).toNat from rfl]
    congr 1
    ext j hj
    simp only [← BitVec.getLsbD_eq_getElem, BitVec.getLsbD_extractLsb', hj, decide_true, Bool.true_and]
    rw [hb _ (by omega), if_neg (by omega), if_pos (by omega)]
    simp
  · rw [show (0 : Nat) = (0#8 : BitVec 8).toNat from rfl]
    congr 1
    ext j hj
    simp only [← BitVec.getLsbD_eq_getElem, BitVec.getLsbD_extractLsb', hj, decide_true, Bool.true_and]
    rw [hb _ (by omega), if_neg (by omega), if_pos (by omega)]
    simp
  · rw [← BitVec.toNat_or]
    congr 1
    ext j hj
    simp only [← BitVec.getLsbD_eq_getElem, BitVec.getLsbD_extractLsb', BitVec.getLsbD_or, hj, decide_true, Bool.true_and]
    rw [hb _ (by omega), if_pos (by omega)]
    simp

/-- What the 64-bit conversion computes: the first byte arrives, every second one is merged into one, and the others are lost. -/
theorem C50_swap64_value (v : BitVec 64) : byteOf (swap64 v) 7 = byteOf v 0 ∧ (∀ i, 0 < i → i < 7 → byteOf (swap64 v) i = 0) ∧
    byteOf (swap64 v) 0 = byteOf v 1 ||| byteOf v 3 ||| byteOf v 5 ||| byteOf v 7 := by
  have hm : ∀ j, j < 64 → (0xFF#64 : BitVec 64).getLsbD j = decide (j < 8) := by
    have : ∀ j : Fin 64, (0xFF#64 : BitVec 64).getLsbD j = decide (j.val < 8) := by decide
    exact fun j hj => this ⟨j, hj⟩
  have hb : ∀ j, j < 64 → (swap64 v).getLsbD j = if j < 8 then v.getLsbD (8 + j) || v.getLsbD (24 + j) || v.getLsbD (40 + j) || v.getLsbD (56 + j)
      else if j < 56 then false else v.getLsbD (j - 56) := by
    intro j hj
    simp only [swap64, BitVec.getLsbD_or, BitVec.getLsbD_and, BitVec.getLsbD_shiftLeft, BitVec.getLsbD_ushiftRight, hm j hj]
    by_cases h1 : j < 8
    · simp [h1, show j < 24 by omega, show j < 40 by omega, show j < 56 by omega]
    · by_cases h2 : j < 56
      · simp [h1, h2, BitVec.getLsbD_of_ge v (56 + j) (by omega)]
      · simp [h1, h2, hj, BitVec.getLsbD_of_ge v (56 + j) (by omega)]
  simp only [byteOf_eq]
  refine ⟨?_, fun i h0 h7 => ?_, ?_⟩
  · congr 1
    ext j hj
    simp only [← BitVec.getLsbD_eq_getElem, BitVec.getLsbD_extractLsb', hj, decide_true, Bool.true_and]
    rw [hb _ (by omega), if_neg (by omega), if_neg (by omega)]
    congr 1; omega
  · rw [show (0 : Nat) = (0#8 : BitVec 8).toNat from rfl]
    congr 1
    ext j hj
    simp only [← BitVec.getLsbD_eq_getElem, BitVec.getLsbD_extractLsb', hj, decide_true, Bool.true_and]
    rw [hb _ (by omega), if_neg (by omega), if_pos (by omega)]
    simp
  · rw [← BitVec.toNat_or, ← BitVec.toNat_or, ← BitVec.toNat_or]
    congr 1
    ext j hj
    simp only [← BitVec.getLsbD_eq_getElem, BitVec.getLsbD_extractLsb', BitVec.getLsbD_or, hj, decide_true, Bool.true_and]
    rw [hb _ (by omega), if_pos (by omega)]
    simp

/-- The 32-bit conversion is right for values whose two middle bytes are zero. -/
theorem C50_swap32_partial (v : BitVec 32) (h1 : byteOf v 1 = 0) (h2 : byteOf v 2 = 0) :
    ∀ i < 4, byteOf (swap32 v) i = byteOf v (3 - i) := by
  have hz1 : ∀ j, 8 ≤ j → j < 16 → v.getLsbD j = false := by
    intro j a b
    rw [byteOf_eq] at h1
    have : v.extractLsb' (8 * 1) 8 = 0#8 := BitVec.eq_of_toNat_eq h1
    have h := congrArg (fun x => x.getLsbD (j - 8)) this
    simp at h
    simpa [show 8 + (j - 8) = j by omega, show j - 8 < 8 by omega] using h
  have hz2 : ∀ j, 16 ≤ j → j < 24 → v.getLsbD j = false := by
    intro j a b
    rw [byteOf_eq] at h2
    have : v.extractLsb' (8 * 2) 8 = 0#8 := BitVec.eq_of_toNat_eq h2
    have h := congrArg (fun x => x.getLsbD (j - 16)) this
    simp at h
    simpa [show 16 + (j - 16) = j by omega, show j - 16 < 8 by omega] using h
  have bits : swap32 v = (v <<< 24) ||| (v >>> 24) := by
    unfold swap32
    have e1 : (v <<< 8) &&& 0xFF#32 = 0#32 := by
      ext j hj
      have hm : (0xFF#32 : BitVec 32).getLsbD j = decide (j < 8) := by
        have : ∀ j : Fin 32, (0xFF#32 : BitVec 32).getLsbD j = decide (j.val < 8) := by decide
        exact this ⟨j, hj⟩
      rw [← BitVec.getLsbD_eq_getElem, ← BitVec.getLsbD_eq_getElem]
      simp only [BitVec.getLsbD_and, BitVec.getLsbD_shiftLeft, hm]
      by_cases h : j < 8 <;> simp [h]
    have e2 : (v >>> 8) &&& 0xFF#32 = 0#32 := by
      ext j hj
      have hm : (0xFF#32 : BitVec 32).getLsbD j = decide (j < 8) := by
        have : ∀ j : Fin 32, (0xFF#32 : BitVec 32).getLsbD j = decide (j.val < 8) := by decide
        exact this ⟨j, hj⟩
      rw [← BitVec.getLsbD_eq_getElem, ← BitVec.getLsbD_eq_getElem]
      simp only [BitVec.getLsbD_and, BitVec.getLsbD_ushiftRight, hm]
      by_cases h : j < 8
      · simp [hz1 (8 + j) (by omega) (by omega)]
      · simp [h]
    simp [e1, e2]
  intro i hi
  rw [bits, byteOf_eq, byteOf_eq]
  congr 1
  have hi' : i = 0 ∨ i = 1 ∨ i = 2 ∨ i = 3 := by omega
  rcases hi' with rfl | rfl | rfl | rfl
  · ext j hj
    simp only [← BitVec.getLsbD_eq_getElem]
    simp [hj]
    intro h; omega
  · ext j hj
    simp only [← BitVec.getLsbD_eq_getElem]
    simp [hj, hz2 (16 + j) (by omega) (by omega)]
    exact ⟨fun h => by omega, BitVec.getLsbD_of_ge _ _ (by omega)⟩
  · ext j hj
    simp only [← BitVec.getLsbD_eq_getElem]
    simp [hj, hz1 (8 + j) (by omega) (by omega)]
    exact ⟨fun h => by omega, BitVec.getLsbD_of_ge _ _ (by omega)⟩
  · ext j hj
    simp only [← BitVec.getLsbD_eq_getElem]
    simp [hj, show 24 + j < 32 by omega]
    rw [BitVec.getLsbD_of_ge _ _ (by omega), Bool.or_false, ← BitVec.getLsbD_eq_getElem]

/-- Sleeping, when it returns, returns at the target time exactly: at least `ns` have passed
on a clock that does not wrap. -/
theorem C50_sleep_returns_late_enough_partial (clock : Nat → Nat) (ns fuel k : Nat) (hw : clock 0 + ns < 2 ^ 64)
    (h : sleep clock ns fuel = some k) : clock (k + 1) ≥ clock 0 + ns := by
  have := List.find?_some h
  have this := eq_of_beq this
  rw [Nat.mod_eq_of_lt hw] at this
  omega

/-- Sleeping returns if some reading hits the target. Missing: clocks that skip it. -/
theorem C50_sleep_returns_if_hit_partial (clock : Nat → Nat) (ns k : Nat) (h : clock (k + 1) = (clock 0 + ns) % 2 ^ 64) :
    ∃ fuel j, sleep clock ns fuel = some j ∧ j ≤ k := by
  refine ⟨k + 1, ?_⟩
  cases hf : sleep clock ns (k + 1) with
  | none =>
    have := List.find?_eq_none.1 hf k (by simp)
    simp [h] at this
  | some j => exact ⟨j, rfl, by have := List.mem_of_find?_eq_some hf; simp at this; omega⟩

/-- False: a clock that skips the target (a 2 GHz time stamp counter read every 10 cycles,
sleeping 3 ns) makes sleeping never return, although the clock never stops. -/
theorem C50_sleep_never_returns : ∃ clock : Nat → Nat,
    (∀ k, clock k = timeNs 2 1 (10 * k)) ∧ (∀ k, 10 * k < 2 ^ 64 → clock k = 5 * k) ∧
    ∀ fuel, 10 * fuel < 2 ^ 64 → sleep clock 3 fuel = none := by
  have five : ∀ k, timeNs 2 1 (10 * k) = 5 * k % 2 ^ 64 := by
    intro k
    have : 10 * k / 2 = 5 * k := by omega
    rw [timeNs, this, Nat.mul_one]
  refine ⟨fun k => timeNs 2 1 (10 * k), fun _ => rfl, ?_, ?_⟩
  · intro k hk
    show timeNs 2 1 (10 * k) = _
    rw [five]
    exact Nat.mod_eq_of_lt (by omega)
  · intro fuel hf
    unfold sleep
    rw [List.find?_eq_none]
    intro k hk h
    rw [List.mem_range] at hk
    have h := eq_of_beq h
    beta_reduce at h
    rw [five (k + 1), five 0] at h
    generalize hM : 2 ^ 64 = M at h hf
    have hM3 : 10 < M := by rw [← hM]; norm_num
    rw [Nat.mul_zero, Nat.zero_mod, Nat.zero_add, Nat.mod_eq_of_lt (a := 3) (by omega),
      Nat.mod_eq_of_lt (a := 5 * (k + 1)) (by omega)] at h
    omega

/-- On bare metal, where the denominator is 10, sleeping returns if and only if the time is a multiple of 10 ns and some reading of the
counter falls into one step of the clock, `num` cycles long: those `ns / 10` steps after the first reading. For every counter, every frequency
from 1 GHz on, and every target that does not wrap. -/
theorem C50_metal_sleep_window (tsc : Nat → Nat) (num ns : Nat) (hn : 10 ≤ num) (ht : ∀ k, tsc k < 2 ^ 64) (hw : timeNs num 10 (tsc 0) + ns < 2 ^ 64) :
    (∃ fuel, (sleep (fun k => timeNs num 10 (tsc k)) ns fuel).isSome) ↔
      ns % 10 = 0 ∧ ∃ k, num * (tsc 0 / num + ns / 10) ≤ tsc (k + 1) ∧ tsc (k + 1) < num * (tsc 0 / num + ns / 10) + num := by
  have hv : ∀ k, timeNs num 10 (tsc k) = tsc k / num * 10 := by
    intro k
    refine Nat.mod_eq_of_lt (lt_of_le_of_lt ?_ (ht k))
    exact (Nat.mul_le_mul_left _ hn).trans (Nat.div_mul_le_self _ _)
  have hs : ∀ fuel, (sleep (fun k => timeNs num 10 (tsc k)) ns fuel).isSome ↔ ∃ k < fuel, tsc (k + 1) / num * 10 = tsc 0 / num * 10 + ns := by
    intro fuel
    simp only [sleep, List.find?_isSome, List.mem_range, beq_iff_eq]
    rw [Nat.mod_eq_of_lt hw]
    simp only [hv]
  have hq : ∀ k, tsc (k + 1) / num * 10 = tsc 0 / num * 10 + ns ↔
      ns % 10 = 0 ∧ num * (tsc 0 / num + ns / 10) ≤ tsc (k + 1) ∧ tsc (k + 1) < num * (tsc 0 / num + ns / 10) + num := by
    intro k
    have h : (tsc (k + 1) / num = tsc 0 / num + ns / 10) ↔ num * (tsc 0 / num + ns / 10) ≤ tsc (k + 1) ∧ tsc (k + 1) < num * (tsc 0 / num + ns / 10) + num := by
      rw [Nat.div_eq_iff (by omega), Nat.mul_comm num]
      omega
    rw [← h]
    omega
  simp only [hs, hq]
  constructor
  · rintro ⟨f, k, -, h1, h2⟩; exact ⟨h1, k, h2⟩
  · rintro ⟨h1, k, h2⟩; exact ⟨k + 1, k, by omega, h1, h2⟩

/-- At 2.4 GHz, a counter that is read at 0 and every 50 cycles from 75 on skips the step 1000 ns later; one that is read every 24 cycles hits it. -/
example : (10 ≤ 24 ∧ timeNs 24 10 0 + 1000 < 2 ^ 64 ∧ ¬ ∃ k, 24 * (0 / 24 + 1000 / 10) ≤ 50 * (k + 1) + 25 ∧ 50 * (k + 1) + 25 < 24 * (0 / 24 + 1000 / 10) + 24) ∧
    24 * (0 / 24 + 1000 / 10) ≤ 24 * (99 + 1) := by
  refine ⟨⟨by norm_num, by norm_num [timeNs], ?_⟩, by norm_num⟩
  rintro ⟨k, h1, h2⟩
  omega

/-- The request of the Linux version is exactly `ns`, well-formed. -/
theorem C50_linux_request (ns : Nat) : (Clock.linuxRequest ns).1 * 1000000000 + (Clock.linuxRequest ns).2 = ns ∧
    (Clock.linuxRequest ns).2 < 1000000000 := by
  simp only [Clock.linuxRequest]; omega

/-- The DPDK version waits long enough (a million times as long) below 4294968 ns. -/
theorem C50_dpdk_delay_partial (ns : Nat) (h : ns * 1000 < 2 ^ 32) : Clock.dpdkDelayUs ns * 1000 ≥ ns := by
  have h2 : Clock.dpdkDelayUs ns = ns * 1000 := by
    simp only [Clock.dpdkDelayUs]
    rw [Nat.mod_eq_of_lt (a := ns * 1000) (b := 2 ^ 64) (by omega)]
    exact Nat.mod_eq_of_lt h
  omega

/-- False beyond: the microseconds are truncated to 32 bits, here to none at all. -/
theorem C50_dpdk_delay_wraps : Clock.dpdkDelayUs 536870912 = 0 := by decide

/-- Non-vacuity. -/
example : swap16 0xABCD#16 = 0xCDAB#16 ∧ byteOf 0xAB0000CD#32 1 = 0 ∧ byteOf 0xAB0000CD#32 2 = 0 ∧
    sleep (fun k => k) 3 10 = some 2 := by decide

end Verif.Props
