/- Property C57: the driver's helpers for device registers and its timeouts. -/
import Verif.Env.IxgbeRegs
import Mathlib.Tactic.ByContra

set_option autoImplicit false

namespace Verif.Props
open Verif.IxgbeRegs

/-! ### C57 Register fields and timeouts do what the driver expects -/

/-- `BITS(a, b)` has exactly the bits from `a` to `b`. -/
theorem C57_bits (a b : Nat) (hab : a ≤ b) (hb : b < 32) (i : Nat) :
    (bits a b).getLsbD i = decide (a ≤ i ∧ i ≤ b) := by
  have hones : ∀ j, (0xFFFFFFFF#32).getLsbD j = decide (j < 32) := by
    intro j
    have : (0xFFFFFFFF#32) = BitVec.allOnes 32 := by decide
    rw [this, BitVec.getLsbD_allOnes]
  unfold bits
  rw [BitVec.getLsbD_xor]
  by_cases h31 : b = 31
  · subst h31
    rw [if_pos rfl, BitVec.getLsbD_shiftLeft, hones]
    rw [Bool.eq_iff_iff]
    simp
    omega
  · rw [if_neg h31, BitVec.getLsbD_shiftLeft, BitVec.getLsbD_shiftLeft, hones, hones]
    rw [Bool.eq_iff_iff]
    by_cases hi : i < 32
    · by_cases h1 : i < a
      · have h2 : i < b + 1 := by omega
        have h3 : ¬ a ≤ i := by omega
        simp [hi, h1, h2, h3]
      · have h3 : a ≤ i := by omega
        by_cases h2 : i < b + 1
        · have h4 : i ≤ b := by omega
          have h5 : i - a < 32 := by omega
          simp [hi, h1, h2, h3, h4, h5]
        · have h4 : ¬ i ≤ b := by omega
          have h5 : i - a < 32 := by omega
          have h6 : i - (b + 1) < 32 := by omega
          simp [hi, h1, h2, h4, h5, h6]
    · have h4 : ¬ i ≤ b := by omega
      simp [hi, h4]

theorem shifted_zero (v : BitVec 32) (n : Nat) : (v >>> n) &&& 1#32 = 0#32 ↔ v.getLsbD n = false := by
  constructor
  · intro h
    have := congrArg (fun x => x.getLsbD 0) h
    simpa using this
  · intro h
    apply BitVec.eq_of_getLsbD_eq
    intro i hi
    rw [BitVec.getLsbD_and, BitVec.getLsbD_ushiftRight]
    by_cases h0 : i = 0
    · subst h0; simp [h]
    · have : (1#32).getLsbD i = false := by simp [BitVec.getLsbD_one, h0]
      simp [this]

theorem ffsLoop_spec (v : BitVec 32) (k : Nat) : ∀ n, n + k = 32 → (∃ i, n ≤ i ∧ v.getLsbD i = true) →
    ∃ m, ffsLoop v k n = some m ∧ n ≤ m ∧ v.getLsbD m = true ∧ ∀ j, n ≤ j → j < m → v.getLsbD j = false := by
  induction k with
  | zero =>
    rintro n hn ⟨i, hi, ht⟩
    have := BitVec.lt_of_getLsbD ht
    omega
  | succ k ih =>
    rintro n hn ⟨i, hi, ht⟩
    unfold ffsLoop
    by_cases h0 : v.getLsbD n = false
    · rw [if_pos ((shifted_zero v n).2 h0)]
      have hne : i ≠ n := by rintro rfl; rw [h0] at ht; cases ht
      obtain ⟨m, a, b, c, d⟩ := ih (n + 1) (by omega) ⟨i, by omega, ht⟩
      refine ⟨m, a, by omega, c, fun j hj hjm => ?_⟩
      by_cases hjn : j = n
      · subst hjn; exact h0
      · exact d j (by omega) hjm
    · rw [if_neg (fun h => h0 ((shifted_zero v n).1 h))]
      exact ⟨n, rfl, Nat.le_refl _, by simpa using h0, fun j h1 h2 => by omega⟩

/-- `find_first_set` finds the lowest bit that is set. -/
theorem C57_first_set (v : BitVec 32) (hv : v ≠ 0#32) : ∃ m, findFirstSet v = some m ∧ m < 32 ∧ v.getLsbD m = true ∧
    ∀ j < m, v.getLsbD j = false := by
  have hex : ∃ i, v.getLsbD i = true := by
    by_contra hno
    apply hv
    apply BitVec.eq_of_getLsbD_eq
    intro i _
    have : ¬ v.getLsbD i = true := fun h => hno ⟨i, h⟩
    simpa using this
  obtain ⟨i, hi⟩ := hex
  obtain ⟨m, a, -, c, d⟩ := ffsLoop_spec v 32 0 rfl ⟨i, Nat.zero_le _, hi⟩
  refine ⟨m, ?_, BitVec.lt_of_getLsbD c, c, fun j hj => d j (Nat.zero_le _) hj⟩
  unfold findFirstSet
  rw [if_neg hv, a]

theorem first_bits (a b : Nat) (hab : a ≤ b) (hb : b < 32) : findFirstSet (bits a b) = some a := by
  have hne : bits a b ≠ 0#32 := by
    intro h
    have := C57_bits a b hab hb a
    rw [h] at this
    simp at this
    omega
  obtain ⟨m, h1, -, h3, h4⟩ := C57_first_set _ hne
  rw [C57_bits a b hab hb] at h3
  have h3 := of_decide_eq_true h3
  have : ¬ a < m := by
    intro hlt
    have := h4 a hlt
    rw [C57_bits a b hab hb] at this
    simp at this
    omega
  rw [h1]
  congr 1
  omega

/-- Writing a value that fits into a field: reading the field gives the value, and nothing
else has changed in this or another register. -/
theorem C57_write_read (r : Regs) (reg a b : Nat) (hab : a ≤ b) (hb : b < 32) (x : BitVec 32)
    (hx : x.toNat < 2 ^ (b - a + 1)) : ∃ r', writeField r reg (bits a b) x = some r' ∧
      readField r' reg (bits a b) = some x ∧
      (∀ i, ¬ (a ≤ i ∧ i ≤ b) → (r' reg).getLsbD i = (r reg).getLsbD i) ∧ ∀ other, other ≠ reg → r' other = r other := by
  have hxb : ∀ i, b - a + 1 ≤ i → x.getLsbD i = false := by
    intro i hi
    rw [← BitVec.testBit_toNat]
    exact Nat.testBit_lt_two_pow (Nat.lt_of_lt_of_le hx (Nat.pow_le_pow_right (by decide) hi))
  refine ⟨_, by unfold writeField; rw [first_bits a b hab hb]; rfl, ?_, ?_, ?_⟩
  · unfold readField
    rw [first_bits a b hab hb]
    show some _ = some x
    congr 1
    apply BitVec.eq_of_getLsbD_eq
    intro i hi
    simp only [regRead, regWrite, if_true, BitVec.getLsbD_and, BitVec.getLsbD_ushiftRight, BitVec.getLsbD_or,
      BitVec.getLsbD_not, BitVec.getLsbD_shiftLeft, C57_bits a b hab hb]
    by_cases h1 : a + i ≤ b
    · have : a + i < 32 := by omega
      simp [h1, this]
    · simp [h1, hxb i (by omega)]
  · intro i hi
    simp only [regRead, regWrite, if_true, BitVec.getLsbD_and, BitVec.getLsbD_or,
      BitVec.getLsbD_not, BitVec.getLsbD_shiftLeft, C57_bits a b hab hb]
    by_cases h32 : i < 32
    · by_cases h1 : a ≤ i
      · have h2 : ¬ i ≤ b := fun h => hi ⟨h1, h⟩
        simp [h32, h1, h2, hxb (i - a) (by omega)]
      · have : i < a := by omega
        simp [h32, h1, this]
    · rw [BitVec.getLsbD_of_ge (r reg) i (by omega)]
      simp [h32]
  · intro other ho
    simp [regWrite, ho]

/-- Setting a field sets its bits and changes nothing else. -/
theorem C57_set (r : Regs) (reg : Nat) (field : BitVec 32) :
    (∀ i, (setField r reg field reg).getLsbD i = ((r reg).getLsbD i || field.getLsbD i)) ∧
    ∀ other, other ≠ reg → setField r reg field other = r other := by
  constructor
  · intro i; simp [setField, regWrite, regRead]
  · intro other ho; simp [setField, regWrite, ho]

/-- Clearing a field clears its bits and changes nothing else. -/
theorem C57_clear (r : Regs) (reg : Nat) (field : BitVec 32) (hf : field ≠ 0#32) : ∃ r', clearField r reg field = some r' ∧
    (∀ i, (r' reg).getLsbD i = ((r reg).getLsbD i && !field.getLsbD i)) ∧
    ∀ other, other ≠ reg → r' other = r other := by
  obtain ⟨m, hm, -⟩ := C57_first_set field hf
  refine ⟨_, by unfold clearField writeField; rw [hm]; rfl, ?_, ?_⟩
  · intro i
    by_cases hi : i < 32
    · simp [regWrite, regRead, hi]
    · simp [BitVec.getLsbD_of_ge _ _ (Nat.le_of_not_lt hi)]
  · intro other ho; simp [regWrite, ho]

/-- Whether a field is cleared is answered correctly. -/
theorem C57_is_cleared (r : Regs) (reg : Nat) (field : BitVec 32) (hf : field ≠ 0#32) : ∃ c, isFieldCleared r reg field = some c ∧
    (c = true ↔ ∀ i, field.getLsbD i = true → (r reg).getLsbD i = false) := by
  obtain ⟨m, hm, -, -, hlow⟩ := C57_first_set field hf
  refine ⟨_, by unfold isFieldCleared readField; rw [hm]; rfl, ?_⟩
  rw [beq_iff_eq]
  constructor
  · intro h0 i hi
    have hmi : m ≤ i := by
      by_contra hlt
      rw [hlow i (by omega)] at hi
      cases hi
    have := congrArg (fun v => v.getLsbD (i - m)) h0
    simp only [BitVec.getLsbD_and, BitVec.getLsbD_ushiftRight, regRead, BitVec.getLsbD_zero] at this
    rw [Nat.add_sub_cancel' hmi, hi] at this
    simpa using this
  · intro hall
    apply BitVec.eq_of_getLsbD_eq
    intro i _
    simp only [BitVec.getLsbD_and, BitVec.getLsbD_ushiftRight, regRead, BitVec.getLsbD_zero]
    by_cases hb : field.getLsbD (m + i) = true
    · rw [hall _ hb]; rfl
    · simp [hb]

theorem pollLoop_spec (T : Nat) (cond : Nat → Bool) (k : Nat) : ∀ now,
    (pollLoop T cond k now = (true, now + k * (T / 10)) ∧ ∀ i < k, cond (now + i * (T / 10)) = true) ∨
    ∃ i < k, pollLoop T cond k now = (false, now + i * (T / 10)) ∧ cond (now + i * (T / 10)) = false := by
  induction k with
  | zero => intro now; exact .inl ⟨by simp [pollLoop], fun i hi => by omega⟩
  | succ k ih =>
    intro now
    unfold pollLoop
    cases hc : cond now with
    | false => exact .inr ⟨0, by omega, by simp, by simpa using hc⟩
    | true =>
      have e : ∀ i, now + T / 10 + i * (T / 10) = now + (i + 1) * (T / 10) := by
        intro i; rw [Nat.add_mul, Nat.one_mul]; omega
      rcases ih (now + T / 10) with ⟨h1, h2⟩ | ⟨i, hi, h1, h2⟩
      · refine .inl ⟨by simp only [Bool.not_true, Bool.false_eq_true, if_false]; rw [h1, e], fun i hi => ?_⟩
        cases i with
        | zero => simpa using hc
        | succ i => rw [← e]; exact h2 i (by omega)
      · exact .inr ⟨i + 1, by omega, by simp only [Bool.not_true, Bool.false_eq_true, if_false]; rw [h1, e], by rw [← e]; exact h2⟩

/-- A timeout waits for its whole time before the body, and not longer; the body is executed
iff the condition was true at each of the ten times at which it was looked at. Missing for
C57: that the condition is still true then, see `C57_timeout_too_early`. -/
theorem C57_timeout_partial (T : Nat) (cond : Nat → Bool) (now : Nat) :
    ((ifAfterTimeout T cond now).1 = true → (ifAfterTimeout T cond now).2 = now + T) ∧
    (ifAfterTimeout T cond now).2 ≤ now + T ∧
    ((ifAfterTimeout T cond now).1 = true ↔ ∀ i < 10, cond (now + T % 10 + i * (T / 10)) = true) := by
  unfold ifAfterTimeout
  have hT := Nat.div_add_mod T 10
  rcases pollLoop_spec T cond 10 (now + T % 10) with ⟨h1, h2⟩ | ⟨i, hi, h1, h2⟩
  · rw [h1]
    exact ⟨fun _ => by simp only; omega, by simp only; omega, fun _ => h2, fun _ => rfl⟩
  · rw [h1]
    have : i * (T / 10) ≤ 10 * (T / 10) := Nat.mul_le_mul_right _ (by omega)
    refine ⟨fun h => (by cases h), by simp only; omega, fun h => (by cases h), fun h => ?_⟩
    rw [h i hi] at h2
    cases h2

/-- The comment at ixgbe.c:369 says "executes the body only if the condition is still true
after the timeout". It may have become false before: for each timeout of at least ten
microseconds, there is a condition that is false from some time before the end on, and the
body is executed. -/
theorem C57_timeout_too_early (T : Nat) (hT : 10 ≤ T) (now : Nat) : ∃ cond : Nat → Bool,
    (∀ t, now + T ≤ t → cond t = false) ∧ (ifAfterTimeout T cond now).1 = true := by
  refine ⟨fun t => decide (t < now + T), fun t ht => by simp; omega, ?_⟩
  rw [(C57_timeout_partial T _ now).2.2]
  intro i hi
  have : i * (T / 10) ≤ 9 * (T / 10) := Nat.mul_le_mul_right _ (by omega)
  have := Nat.div_add_mod T 10
  simp only [decide_eq_true_eq]
  omega

/-- The hypotheses of C57_bits, C57_first_set, C57_write_read, C57_clear and C57_is_cleared,
with PTHRESH of TXDCTL (ixgbe.c:1007). -/
example : 8 ≤ 14 ∧ 14 < 32 ∧ bits 8 14 = 0x7F00#32 ∧ bits 8 14 ≠ 0#32 ∧ (4#32).toNat < 2 ^ (14 - 8 + 1) ∧
    writeField (fun _ => 0x0200FF3C#32) 0x6028 (bits 8 14) 4#32 ≠ none := by decide

/-- The hypothesis of C57_timeout_too_early. -/
example : 10 ≤ 1000 * 1000 := by decide

end Verif.Props
