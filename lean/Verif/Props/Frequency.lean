/- Property C81: the frequency of the time stamp counter. -/
import Verif.Env.Frequency
import Verif.Props.Clock

set_option autoImplicit false

namespace Verif.Props

open Verif.Frequency Verif.Clock

/-- The loop keeps the ratio while the denominator is a multiple of ten. -/
private theorem reduce_ratio : ∀ (k num den : Nat), num ≠ 0 → 10 ^ k ∣ den → ¬ 10 ^ (k + 1) ∣ num →
    (reduce num den).1 * den = num * (reduce num den).2 ∧ (reduce num den).1 % 10 ≠ 0 ∧ (reduce num den).1 ≤ num := by
  intro k
  induction k with
  | zero =>
    intro num den h0 _ hn
    have : num % 10 ≠ 0 := fun h => hn (by simpa using Nat.dvd_of_mod_eq_zero h)
    unfold reduce
    rw [dif_neg (by simp [this])]
    exact ⟨rfl, this, Nat.le_refl _⟩
  | succ k ih =>
    intro num den h0 hd hn
    unfold reduce
    by_cases h : num % 10 = 0
    · rw [dif_pos ⟨h, h0⟩]
      obtain ⟨n, rfl⟩ := Nat.dvd_of_mod_eq_zero h
      obtain ⟨d, rfl⟩ := hd
      have e1 : 10 * n / 10 = n := by omega
      have e2 : 10 ^ (k + 1) * d / 10 = 10 ^ k * d := by
        rw [pow_succ, Nat.mul_right_comm, Nat.mul_div_cancel _ (by norm_num)]
      rw [e1, e2]
      obtain ⟨g1, g2, g3⟩ := ih n (10 ^ k * d) (by omega) ⟨d, rfl⟩ (by
        rintro ⟨c, rfl⟩
        exact hn ⟨c, by rw [pow_succ 10 (k + 1)]; ring⟩)
      refine ⟨?_, g2, by omega⟩
      rw [pow_succ]
      calc _ = 10 * ((reduce n (10 ^ k * d)).1 * (10 ^ k * d)) := by ring
        _ = _ := by rw [g1]; ring
    · rw [dif_neg (by simp [h])]
      exact ⟨rfl, h, Nat.le_refl _⟩

/-- The loop on a numerator with more factors of ten than the denominator has digits. -/
private theorem reduce_zero : ∀ (k num den : Nat), num ≠ 0 → den < 10 ^ k → 10 ^ k ∣ num → (reduce num den).2 = 0 := by
  intro k
  induction k with
  | zero =>
    intro num den h0 hd _
    have hd : den = 0 := by simpa using hd
    subst hd
    induction num using Nat.strong_induction_on with
    | _ num ih =>
      unfold reduce
      by_cases h : num % 10 = 0 ∧ num ≠ 0
      · rw [dif_pos h]; exact ih (num / 10) (by omega) (by omega) (one_dvd _)
      · rw [dif_neg h]
  | succ k ih =>
    intro num den h0 hd hn
    obtain ⟨c, rfl⟩ := hn
    have e : 10 ^ (k + 1) * c / 10 = 10 ^ k * c := by rw [pow_succ, Nat.mul_right_comm, Nat.mul_div_cancel _ (by norm_num)]
    unfold reduce
    rw [dif_pos ⟨by rw [pow_succ, Nat.mul_right_comm, Nat.mul_mod_left], h0⟩, e]
    refine ih _ _ (fun hz => h0 ?_) ?_ ⟨c, rfl⟩
    · rw [pow_succ, Nat.mul_right_comm, hz, Nat.zero_mul]
    · rw [pow_succ] at hd; exact Nat.div_lt_of_lt_mul (by omega)

/-- A clock with that numerator and denominator shows the time: after any number of cycles, of a counter with `hz` cycles per second, the
time it shows is at most the time that has passed, and behind it by less than the denominator in nanoseconds, as long as the time fits in
64 bits. -/
private theorem time_near {hz num den c : Nat} (h0 : hz ≠ 0) (hn : num ≠ 0) (hr : num * 1000000000 = hz * den) (hw : c * 1000000000 / hz < 2 ^ 64) :
    timeNs num den c * hz ≤ c * 1000000000 ∧ c * 1000000000 < (timeNs num den c + den) * hz := by
  have hle : c / num * den * hz ≤ c * 1000000000 := by
    calc c / num * den * hz = c / num * (hz * den) := by ring
      _ = c / num * num * 1000000000 := by rw [← hr]; ring
      _ ≤ _ := Nat.mul_le_mul_right _ (Nat.div_mul_le_self _ _)
  have hlt : c / num * den < 2 ^ 64 := lt_of_le_of_lt ((Nat.le_div_iff_mul_le (Nat.pos_of_ne_zero h0)).2 hle) hw
  unfold timeNs
  rw [Nat.mod_eq_of_lt hlt]
  refine ⟨hle, ?_⟩
  calc c * 1000000000 < (c / num * num + num) * 1000000000 := Nat.mul_lt_mul_of_pos_right (by
        have := Nat.div_add_mod c num
        have := Nat.mod_lt c (Nat.pos_of_ne_zero hn)
        rw [Nat.mul_comm (c / num)]; omega) (by norm_num)
    _ = (c / num + 1) * (num * 1000000000) := by ring
    _ = _ := by rw [hr]; ring

/-- C81, DPDK. For every frequency that DPDK reports and that is not a multiple of 10 GHz, initialization ends, and the clock shows the
time that has passed, rounded down by less than the denominator; it panics exactly if DPDK does not know the frequency. What is missing:
multiples of 10 GHz, for which it is false (`C81_dpdk_stuck`). -/
theorem C81_dpdk_partial (hz : Nat) :
    (dpdkInit hz = none ↔ hz = 0) ∧
    (hz ≠ 0 → ¬ 10000000000 ∣ hz → ∃ num den, dpdkInit hz = some (num, den) ∧ num % 10 ≠ 0 ∧ num ≤ hz ∧ num * 1000000000 = hz * den ∧
      ∀ c, c * 1000000000 / hz < 2 ^ 64 → timeNs num den c * hz ≤ c * 1000000000 ∧ c * 1000000000 < (timeNs num den c + den) * hz) := by
  constructor
  · unfold dpdkInit; by_cases h : hz = 0 <;> simp [h]
  · intro h0 hn
    obtain ⟨h1, h2, h3⟩ := reduce_ratio 9 hz 1000000000 h0 (by norm_num) (by norm_num; exact hn)
    refine ⟨_, _, by unfold dpdkInit; rw [if_neg h0], h2, h3, h1, fun c hw => time_near h0 (fun e => h2 (by rw [e])) h1 hw⟩

/-- `C81_dpdk_partial` on 2.4 GHz, after 10 seconds. -/
example : dpdkInit 2400000000 = some (24, 10) ∧ ¬ 10000000000 ∣ 2400000000 ∧ timeNs 24 10 24000000000 = 10000000000 := by
  refine ⟨?_, by norm_num, by norm_num [timeNs]⟩
  unfold dpdkInit
  rw [if_neg (by norm_num)]
  repeat (unfold reduce; norm_num)

/-- False for multiples of 10 GHz: the denominator is divided down to zero, and the clock stands still. -/
theorem C81_dpdk_stuck (hz : Nat) (h0 : hz ≠ 0) (hd : 10000000000 ∣ hz) :
    ∃ num den, dpdkInit hz = some (num, den) ∧ ∀ c, timeNs num den c = 0 := by
  refine ⟨_, _, by unfold dpdkInit; rw [if_neg h0], fun c => ?_⟩
  rw [reduce_zero 10 hz 1000000000 h0 (by norm_num) (by norm_num; exact hd)]
  simp [timeNs]

example : (10000000000 : Nat) ≠ 0 ∧ 10000000000 ∣ 10000000000 := by norm_num

private theorem byte1 (v : BitVec 64) : ((v >>> 8) &&& 0xFF#64).toNat = v.toNat / 256 % 256 := by
  rw [BitVec.toNat_and, BitVec.toNat_ushiftRight, Nat.shiftRight_eq_div_pow, show (0xFF#64 : BitVec 64).toNat = 2 ^ 8 - 1 from rfl, Nat.and_two_pow_sub_one_eq_mod]

/-- C81, Linux and bare metal. With the MSR file of Linux, and on bare metal if the compiler takes rax, the numerator is the ratio in bits
15 to 8 of MSR 0xCE, whatever the other bits and the other registers are, and if that is at least 1 GHz then the clock shows the time that has
passed for a counter with that many times 100 MHz, rounded down by less than 10 ns, for all values of the counter. The manual,
quoted in tsc.h:17-20, says what these bits are. Without the file Linux aborts. What is missing: rdx (`C81_metal_wrong`), and lower
frequencies, where the clock wraps before the counter (`C18_not_monotone`). -/
theorem C81_msr_partial (msrs : BitVec 32 → BitVec 64) :
    linuxInit none = none ∧ linuxInit (some fun i => msrs (i.setWidth 32)) = some (metalInit .rax msrs) ∧
    metalInit .rax msrs = ((msrs 0xCE#32).toNat / 2 ^ 8 % 2 ^ 8, 10) ∧
    (10 ≤ (msrs 0xCE#32).toNat / 2 ^ 8 % 2 ^ 8 → ∀ c, c < 2 ^ 64 →
      let hz := (msrs 0xCE#32).toNat / 2 ^ 8 % 2 ^ 8 * 100000000
      let t := timeNs (metalInit .rax msrs).1 (metalInit .rax msrs).2 c
      t * hz ≤ c * 1000000000 ∧ c * 1000000000 < (t + 10) * hz) := by
  have hl : tscGetNhz (fun i => msrs (i.setWidth 32)) = ((msrs 0xCE#32).toNat / 2 ^ 8 % 2 ^ 8, 10) := by
    unfold tscGetNhz
    rw [byte1]; rfl
  have hm : metalInit .rax msrs = ((msrs 0xCE#32).toNat / 2 ^ 8 % 2 ^ 8, 10) := by
    unfold metalInit tscGetNhz
    rw [byte1]
    simp only [msrRead, rdmsr, BitVec.toNat_setWidth]
    rw [show (0xCE#64 : BitVec 64).setWidth 32 = 0xCE#32 from rfl]
    generalize (msrs 0xCE#32).toNat = x
    congr 1
    omega
  refine ⟨rfl, ?_, hm, fun h10 c hc => ?_⟩
  · rw [hm, ← hl]; rfl
  · rw [hm]
    generalize (msrs 0xCE#32).toNat / 2 ^ 8 % 2 ^ 8 = r at h10
    refine time_near (by omega) (by omega) (by ring) ?_
    refine lt_of_le_of_lt (Nat.div_le_div_left (c := 1000000000) (by omega) (by norm_num)) ?_
    omega

example : metalInit .rax (fun _ => 0x1800#64) = (24, 10) := by decide

/-- False if the compiler takes rdx: the same ratio, 24, is read as 0, with which the clock divides, for one processor, and as another
frequency for another one. -/
theorem C81_metal_wrong : ∃ msrs : BitVec 32 → BitVec 64, (msrs 0xCE#32).toNat / 2 ^ 8 % 2 ^ 8 = 24 ∧ (metalInit .rdx msrs).1 = 0 ∧
    ∃ msrs' : BitVec 32 → BitVec 64, (msrs' 0xCE#32).toNat / 2 ^ 8 % 2 ^ 8 = 24 ∧ (metalInit .rdx msrs').1 = 8 :=
  ⟨fun _ => 0x1800#64, by decide, by decide, fun _ => 0x080000001800#64, by decide, by decide⟩

/-- C81, the tool. For every value of the symbol for the frequency and of the other bits, the code computes from the registers that the
emulation sets exactly that symbol's value and 10, which are the frequency in the constraint on the clock: the time that the tool allows for
a number of cycles is the time of the clock that was initialized. Other MSRs are refused. -/
theorem C81_emulated (freq : BitVec 8) (high low : BitVec 32) :
    (∀ i, i ≠ 0xCE#32 → emulated freq high low i = none) ∧
    ∃ eax edx, emulated freq high low 0xCE#32 = some (eax, edx) ∧
      ∀ msrs : BitVec 32 → BitVec 64, msrs 0xCE#32 = edx ++ eax → metalInit .rax msrs = (freq.toNat, 10) ∧
        (freq.toNat ≠ 0 → ∀ time cycles : BitVec 64, Verif.Tool.Clock.Constrained freq ⟨time, cycles⟩ ↔
          time.toNat = timeNs (metalInit .rax msrs).1 (metalInit .rax msrs).2 cycles.toNat) := by
  refine ⟨fun i hi => by simp [emulated, hi], _, _, by simp [emulated]; exact ⟨rfl, rfl⟩, fun msrs hm => ?_⟩
  have hb : (freq.toNat, 10) = metalInit .rax msrs := by
    rw [(C81_msr_partial msrs).2.2.1, hm]
    congr 1
    have hx : (high ++ (low.extractLsb 31 16 ++ freq ++ low.extractLsb 7 0 : BitVec 32)).extractLsb' 8 8 = freq := by
      ext i hi
      simp only [BitVec.getElem_extractLsb', BitVec.getLsbD_append]
      have h1 : 8 + i < 32 := by omega
      have h2 : ¬ 8 + i < 7 - 0 + 1 := by omega
      have h3 : 8 + i - (7 - 0 + 1) = i := by omega
      simp [h1, h3, hi, ← BitVec.getLsbD_eq_getElem]
    conv_lhs => rw [← hx]
    rw [BitVec.extractLsb'_toNat, Nat.shiftRight_eq_div_pow]
  refine ⟨hb.symm, fun h0 time cycles => ?_⟩
  have hf : freq.toNat = (msrRead .rax msrs 0xCE#64).toNat / 2 ^ 8 % 2 ^ 8 := (congrArg Prod.fst hb).trans (byte1 _)
  rw [C18_symbolic_clock_exact (msrRead .rax msrs) freq hf h0, show tscGetNhz (msrRead .rax msrs) = metalInit .rax msrs from rfl, ← hb]
  simp only [Verif.Tool.Clock.osClockTimeNs, timeNs, h0, if_false, Option.some.injEq]
  exact eq_comm

/-- `C81_emulated` for a processor of 2.4 GHz. -/
example : emulated 24 0xFFFFFFFF#32 0xAAAAAAAA#32 0xCE#32 = some (0xAAAA18AA#32, 0xFFFFFFFF#32) ∧ (24 : BitVec 8).toNat ≠ 0 := by decide

end Verif.Props
