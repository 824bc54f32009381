/-
C18: the clock.
-/
import Verif.Tool.Clock
import Verif.Env.Frequency

set_option autoImplicit false

namespace Verif.Props
open Verif.Tool.Clock
open Verif.Frequency (tscGetNhz)

/-- One execution reads the clock at most once: a run of reads is accepted iff it has at most one. -/
theorem C18_at_most_once (fresh : List TimeMetadata) : (∃ s, reads none fresh = some s) ↔ fresh.length ≤ 1 := by
  match fresh with
  | [] => simp [reads]
  | [f] => simp [reads, getTimeAndCycles]
  | f :: g :: t => simp [reads, getTimeAndCycles]

theorem smtUDiv_toNat (c : BitVec 64) (f : BitVec 8) (hf : f.toNat ≠ 0) :
    (c.smtUDiv (f.zeroExtend 64)).toNat = c.toNat / f.toNat := by
  have h0 : (f.zeroExtend 64).toNat = f.toNat := by
    rw [BitVec.toNat_setWidth]; exact Nat.mod_eq_of_lt (by have := f.isLt; omega)
  have hne : f.zeroExtend 64 ≠ 0#64 := by
    intro h
    rw [h] at h0
    exact hf h0.symm
  rw [BitVec.smtUDiv_eq]
  simp only [hne, ite_false, BitVec.toNat_udiv, h0]

/-- The symbolic clock describes the real one exactly: for every way of reading MSRs, if the symbol for the frequency has
the value that bits 15 to 8 of MSR 0xCE have, not zero, then a pair of time and cycles is allowed iff the time is what
os_clock_time_ns returns for that cycle count, with the fraction that tsc_get_nhz computes. In particular the assumption that the reserved maximum is not
returned excludes no real execution. -/
theorem C18_symbolic_clock_exact (readMsr : BitVec 64 → BitVec 64) (freq : BitVec 8) (hfreq : freq.toNat = (readMsr 0xCE#64).toNat / 2 ^ 8 % 2 ^ 8)
    (h0 : freq.toNat ≠ 0) (m : TimeMetadata) :
    Constrained freq m ↔ osClockTimeNs m.cycles.toNat (tscGetNhz readMsr).1 (tscGetNhz readMsr).2 = some m.time.toNat := by
  have hn : (tscGetNhz readMsr).1 = freq.toNat := by
    rw [hfreq]
    show ((readMsr 0xCE#64 >>> 8) &&& 0xFF#64).toNat = _
    rw [BitVec.toNat_and, BitVec.toNat_ushiftRight, Nat.shiftRight_eq_div_pow, show (0xFF#64 : BitVec 64).toNat = 2 ^ 8 - 1 from rfl, Nat.and_two_pow_sub_one_eq_mod]
  rw [hn]
  have hmul : ((m.cycles.smtUDiv (freq.zeroExtend 64)) * 10#64).toNat = m.cycles.toNat / freq.toNat * 10 % 2 ^ 64 := by
    rw [BitVec.toNat_mul, smtUDiv_toNat _ _ h0]
    rfl
  simp only [osClockTimeNs, tscGetNhz, h0, if_false, Option.some.injEq, Constrained]
  constructor
  · rintro ⟨_, h⟩
    rw [h, hmul]
  · intro h
    refine ⟨?_, BitVec.eq_of_toNat_eq (by rw [hmul, h])⟩
    intro hmax
    rw [hmax] at h
    have : (0xFFFFFFFFFFFFFFFF#64).toNat = 2 ^ 64 - 1 := by decide
    rw [this] at h
    omega

/-- The time never is the reserved maximum and is the cycle count divided by the frequency, times
ten; with a zero frequency SMT's division is all ones. -/
theorem C18_time_from_cycles (freq : BitVec 8) (m : TimeMetadata) (h : Constrained freq m) :
    m.time.toNat ≠ 2 ^ 64 - 1 ∧ (freq.toNat ≠ 0 → m.time.toNat = m.cycles.toNat / freq.toNat * 10 % 2 ^ 64) := by
  obtain ⟨h1, h2⟩ := h
  refine ⟨fun hm => h1 (BitVec.eq_of_toNat_eq (by rw [hm]; decide)), fun h0 => ?_⟩
  rw [h2, BitVec.toNat_mul, smtUDiv_toNat _ _ h0]
  rfl

example : Constrained 29 ⟨1000, 2903⟩ ∧ (29 : BitVec 8).toNat = (0x1D00#64).toNat / 2 ^ 8 % 2 ^ 8 := by
  refine ⟨⟨by decide, by decide⟩, by decide⟩

/-- The C clock is monotone as long as the product does not wrap (about 58 years at one nanosecond
resolution). The full claim would not need `hw`. -/
theorem C18_monotone_partial (num c1 c2 t1 t2 : Nat) (hc : c1 ≤ c2) (hw : c2 / num * 10 < 2 ^ 64)
    (h1 : osClockTimeNs c1 num 10 = some t1) (h2 : osClockTimeNs c2 num 10 = some t2) : t1 ≤ t2 := by
  simp only [osClockTimeNs] at h1 h2
  split at h1 <;> [cases h1; skip]
  split at h2 <;> [cases h2; skip]
  simp only [Option.some.injEq] at h1 h2
  have hd : c1 / num ≤ c2 / num := Nat.div_le_div_right hc
  rw [Nat.mod_eq_of_lt (by omega)] at h1 h2
  omega

example : osClockTimeNs 2903 29 10 = some 1000 ∧ osClockTimeNs 2900 29 10 = some 1000 ∧ 2903 / 29 * 10 < 2 ^ 64 := by decide

/-- The full claim is false: with every frequency from 1 to 9 the time jumps back to a small
value at some counter value that still fits in 64 bits. -/
theorem C18_not_monotone (num : Nat) (h0 : 0 < num) (h9 : num < 10) :
    ∃ c1 c2 t1 t2, c1 ≤ c2 ∧ c2 < 2 ^ 64 ∧ osClockTimeNs c1 num 10 = some t1 ∧ osClockTimeNs c2 num 10 = some t2 ∧ t2 < t1 := by
  have hne : ¬ num = 0 := by omega
  refine ⟨num * 1844674407370955161, num * 1844674407370955162, 18446744073709551610, 4, by omega, by omega, ?_, ?_, by omega⟩
  · simp only [osClockTimeNs, if_neg hne, Nat.mul_div_cancel_left _ h0]
  · simp only [osClockTimeNs, if_neg hne, Nat.mul_div_cancel_left _ h0]

end Verif.Props
