/- Property C85: the benchmark. -/
import Mathlib.Tactic.Linarith
import Mathlib.Tactic.NormNum
import Mathlib.Tactic.IntervalCases
import Mathlib.Tactic.FieldSimp
import Mathlib.Tactic.Ring
import Verif.Bench.Moongen
import Verif.Props.Nat

set_option autoImplicit false

namespace Verif.Props

namespace BenchSpec
open Verif.Bench

/-- The packets that a card sends in `duration` milliseconds at a rate of `mbps` megabits per second of packets of 64 bytes. -/
def packetsAt (mbps duration : ℚ) : ℚ := mbps * 1000000 / (8 * 64) * (duration / 1000)

/-- The mean loss of the directions, from the packets that each sent and received. -/
def meanLoss (xs : List (ℚ × ℚ)) : ℚ := (xs.map fun x => (x.1 - x.2) / x.1).sum / xs.length

/-- A network function with a capacity of `C` megabits per second in each direction, where a packet takes 84 bytes: at rates from 625 / 8 on,
the generator sends at least 98% in the 30 seconds of a trial, some packets come back, the loss is acceptable exactly up to the capacity,
and losses at lower rates are not higher, up to 5%. -/
structure Capacity (acceptable C : ℚ) (trial : Nat → ℚ → List (ℚ × ℚ)) : Prop where
  sent : ∀ i r, 625 / 8 ≤ r → ∀ x ∈ trial i r, 98 / 100 * (r * 1000000 / (84 * 8) * 30) ≤ x.1
  some : ∀ i r, 625 / 8 ≤ r → meanLoss (trial i r) < 1
  loss : ∀ i r, 625 / 8 ≤ r → (meanLoss (trial i r) ≤ acceptable ↔ r ≤ C)
  steady : ∀ i j r r', 625 / 8 ≤ r → r < r' → meanLoss (trial i r) ≤ meanLoss (trial j r') + 5 / 100

end BenchSpec
open BenchSpec Verif.Bench
open Verif.PacketSpec (isTcpUdp flow)
open Verif.Nf (Packet Flow Out)
open Verif.IndexPoolSpec (timeMax)

namespace BenchProofs

theorem mapM_some {α β : Type} {f : α → Option β} {g : α → β} : ∀ {xs : List α}, (∀ x ∈ xs, f x = some (g x)) → xs.mapM f = some (xs.map g)
  | [], _ => rfl
  | x :: xs, h => by simp [List.mapM_cons, h x (by simp), mapM_some fun y hy => h y (List.mem_cons_of_mem _ hy)]

theorem mapM_eq {α β : Type} {f : α → Option β} {g : α → β} (hf : ∀ x y, f x = some y → y = g x) :
    ∀ {xs : List α} {ys : List β}, xs.mapM f = some ys → ys = xs.map g
  | [], ys, h => by simpa using h.symm
  | x :: xs, ys, h => by
    rw [List.mapM_cons] at h
    cases e : f x with
    | none => simp [e] at h
    | some y =>
      cases e' : xs.mapM f with
      | none => simp [e, e'] at h
      | some zs =>
        simp [e, e'] at h
        rw [← h, hf x y e, mapM_eq hf e']
        rfl

theorem trialLoss_eq {target l : ℚ} {xs : List (ℚ × ℚ)} (h : trialLoss target xs = some l) : l = meanLoss xs := by
  rw [trialLoss] at h
  cases e : xs.mapM (taskLoss target) with
  | none => simp [e] at h
  | some ys =>
    simp [e] at h
    rw [← h, mapM_eq (g := fun x => (x.1 - x.2) / x.1) (fun x y h => by
      rw [taskLoss] at h
      split at h <;> simp at h
      exact h.symm) e, meanLoss]

theorem trialLoss_some {acceptable C : ℚ} {trial : Nat → ℚ → List (ℚ × ℚ)} (hc : Capacity acceptable C trial) (i : Nat) {r : ℚ}
    (hr : 625 / 8 ≤ r) : trialLoss (targetTx r stepsDuration) (trial i r) = some (meanLoss (trial i r)) := by
  rw [trialLoss, mapM_some (g := fun x => (x.1 - x.2) / x.1)]
  · rfl
  · intro x hx
    rw [taskLoss, if_neg]
    have := hc.sent i r hr x hx
    rw [not_lt, targetTx, packetSize, stepsDuration]
    refine le_trans (le_of_eq ?_) this
    ring

/-- What holds before step `i`, if the capacity is below the maximum. -/
structure Inv (acceptable C : ℚ) (trial : Nat → ℚ → List (ℚ × ℚ)) (i : Nat) (s : Search) : Prop where
  best : s.bestRate = s.lowerBound
  low : s.lowerBound ≤ C
  up : C < s.upperBound
  mid : s.rate = s.lowerBound + (s.upperBound - s.lowerBound) / 2
  width : s.upperBound - s.lowerBound = 10000 / 2 ^ (i - 2)
  far : 625 / 8 ≤ s.lowerBound ∨ s.lowerBound = 0
  last : s.increased = false → ∃ j, meanLoss (trial j s.upperBound) = s.lastLoss

theorem search_step {acceptable C : ℚ} {trial : Nat → ℚ → List (ℚ × ℚ)} (hc : Capacity acceptable C trial) (hC : 625 / 8 ≤ C) {i : Nat}
    {s : Search} (h2 : 2 ≤ i) (h10 : i ≤ 10) (inv : Inv acceptable C trial i s) :
    ∃ l, trialLoss (targetTx s.rate stepsDuration) (trial i s.rate) = some l ∧ l ≠ 1 ∧
      ¬ (s.increased = false ∧ s.lastLoss - l < -(5 / 100)) ∧ Inv acceptable C trial (i + 1) (s.next acceptable l) ∧
      (s.next acceptable l).bestRate ≠ (s.next acceptable l).upperBound := by
  obtain ⟨best, low, up, mid, width, far, last⟩ := inv
  have hpos : (0 : ℚ) < 10000 / 2 ^ (i - 2) := by positivity
  have hlow : 625 / 8 ≤ s.rate := by
    rcases far with h | h
    · rw [mid]; linarith
    · rw [h] at width mid
      rw [mid]
      have : s.upperBound = 10000 / 2 ^ (i - 2) := by linarith
      have hup : (625 : ℚ) / 8 < 10000 / 2 ^ (i - 2) := by linarith
      have : 625 / 4 ≤ s.upperBound := by
        rw [this]
        interval_cases i <;> first | (exfalso; norm_num at hup; done) | norm_num
      linarith
  have e := trialLoss_some hc i hlow
  have l1 := hc.some i s.rate hlow
  have la := hc.loss i s.rate hlow
  generalize hl : meanLoss (trial i s.rate) = l at e l1 la
  refine ⟨l, e, by linarith, ?_, ?_⟩
  · rintro ⟨hi, hl'⟩
    obtain ⟨j, ej⟩ := last hi
    have := hc.steady i j s.rate s.upperBound hlow (by rw [mid]; linarith)
    rw [hl, ej] at this
    linarith
  have hw : (10000 : ℚ) / 2 ^ (i + 1 - 2) = 10000 / 2 ^ (i - 2) / 2 := by
    rw [show i + 1 - 2 = (i - 2) + 1 by omega, pow_succ]
    field_simp
  by_cases h : l ≤ acceptable
  · have hr := la.mp h
    simp only [Search.next, if_pos h]
    refine ⟨⟨rfl, hr, up, rfl, ?_, .inl hlow, fun h => by cases h⟩, ne_of_lt (by linarith)⟩
    dsimp only
    rw [hw, mid]; linarith
  · have hr : C < s.rate := lt_of_not_ge fun h' => h (la.mpr h')
    simp only [Search.next, if_neg h]
    refine ⟨⟨best, low, hr, rfl, ?_, far, fun _ => ⟨i, hl⟩⟩, ne_of_lt (by linarith)⟩
    dsimp only
    rw [hw, mid]; linarith

theorem search_inv {acceptable C : ℚ} {trial : Nat → ℚ → List (ℚ × ℚ)} (hc : Capacity acceptable C trial) (hC : 625 / 8 ≤ C) :
    ∀ (k i : Nat) (s : Search), i + k = 10 → 2 ≤ i → Inv acceptable C trial i s →
    ∃ b, searchFrom acceptable trial (k + 1) i s = .best b ∧ b ≤ C ∧ C < b + 625 / 32 := by
  intro k
  induction k with
  | zero =>
    intro i s hi h2 inv
    obtain rfl : i = 10 := by omega
    obtain ⟨l, e, l1, l2, inv', ne⟩ := search_step hc hC h2 (by omega) inv
    refine ⟨(s.next acceptable l).bestRate, by simp only [searchFrom, e, if_neg l1, if_neg l2, stepsCount, true_or, if_true], ?_⟩
    have hw := inv'.width
    norm_num at hw
    rw [inv'.best]
    exact ⟨inv'.low, by linarith [inv'.up]⟩
  | succ k ih =>
    intro i s hi h2 inv
    obtain ⟨l, e, l1, l2, inv', ne⟩ := search_step hc hC h2 (by omega) inv
    obtain ⟨b, hb, h⟩ := ih (i + 1) _ (by omega) (by omega) inv'
    refine ⟨b, ?_, h⟩
    rw [searchFrom]
    simp only [e, if_neg l1, if_neg l2]
    rw [if_neg (by rintro (h | h); · rw [stepsCount] at h; omega
                   · exact ne h.2)]
    exact hb

/-- As long as no trial is acceptable, the rate is halved. -/
theorem slow_steps {acceptable : ℚ} {trial : Nat → ℚ → List (ℚ × ℚ)}
    (h0 : ∀ i r, trial i r ≠ []) (hgen : ∀ i r, ∀ x ∈ trial i r, x.1 ≤ packetsAt (moongenRate r) 30000)
    (hslow : ∀ i r, 625 / 8 ≤ r → acceptable < meanLoss (trial i r)) :
    ∀ (k i : Nat) (s : Search), i + k = 9 → 1 ≤ i → s.lowerBound = 0 → s.rate = 10000 / 2 ^ (i - 1) →
    searchFrom acceptable trial (k + 2) i s = .fatal := by
  intro k
  induction k with
  | zero =>
    intro i s hi h1 hl hr
    obtain rfl : i = 9 := by omega
    have hr : s.rate = 625 / 16 := by rw [hr]; norm_num
    have hm : moongenRate (625 / 16) = 29 := by
      rw [moongenRate, packetSize]
      norm_num
    have : trialLoss (targetTx s.rate stepsDuration) (trial 9 s.rate) = none := by
      rw [hr]
      have hg := hgen 9 (625 / 16)
      rw [hm] at hg
      rcases ht : trial 9 (625 / 16) with _ | ⟨x, xs⟩
      · exact absurd ht (h0 _ _)
      rw [ht] at hg
      have hx := hg x (by simp)
      have : taskLoss (targetTx (625 / 16) stepsDuration) x = none := by
        rw [taskLoss, if_pos]
        refine lt_of_le_of_lt hx ?_
        norm_num [packetsAt, targetTx, packetSize, stepsDuration]
      simp [trialLoss, List.mapM_cons, this]
    simp only [searchFrom, this]
  | succ k ih =>
    intro i s hi h1 hl hr
    rw [searchFrom]
    cases e : trialLoss (targetTx s.rate stepsDuration) (trial i s.rate) with
    | none => rfl
    | some l =>
      simp only
      split
      · rfl
      split
      · rfl
      have hge : 625 / 8 ≤ s.rate := by
        rw [hr]
        have : i ≤ 8 := by omega
        interval_cases i <;> norm_num
      have hn : ¬ l ≤ acceptable := not_le.mpr (trialLoss_eq e ▸ hslow i _ hge)
      rw [if_neg (by rintro (h | h); · rw [stepsCount] at h; omega
                     · exact hn h.1)]
      refine ih (i + 1) _ (by omega) (by omega) (by simp [Search.next, if_neg hn, hl]) ?_
      simp only [Search.next, if_neg hn, hl, hr]
      rw [show i + 1 - 1 = (i - 1) + 1 by omega, pow_succ]
      field_simp
      ring

end BenchProofs
open BenchProofs

/-- The search finds the capacity of the network function, if it is at least 78.125 Mb/s in each direction: the best rate is the maximum if the
capacity is, otherwise it is below the capacity by less than 20 Mb/s; the number written is that of all directions together, rounded down. -/
theorem C85_search_partial {acceptable C : ℚ} {trial : Nat → ℚ → List (ℚ × ℚ)} (hc : Capacity acceptable C trial) (hC : 625 / 8 ≤ C) :
    ∃ b, search acceptable trial = .best b ∧ (10000 ≤ C → b = 10000) ∧ (C < 10000 → b ≤ C ∧ C < b + 625 / 32) ∧
      ∀ pairs : Nat, written pairs b ≤ pairs * b ∧ pairs * b < written pairs b + 1 := by
  have e := trialLoss_some hc 1 (r := 10000) (by norm_num)
  have l1 := hc.some 1 10000 (by norm_num)
  have la := hc.loss 1 10000 (by norm_num)
  generalize hl : meanLoss (trial 1 10000) = l at e l1 la
  have hl1 : ¬ l = 1 := by linarith
  have hl2 : ¬ (Search.initial.increased = false ∧ Search.initial.lastLoss - l < -(5 / 100)) := by
    rintro ⟨-, h⟩
    simp only [Search.initial] at h
    linarith
  have hfl : ∀ b : ℚ, ∀ pairs : Nat, (written pairs b : ℚ) ≤ pairs * b ∧ pairs * b < written pairs b + 1 := fun b pairs =>
    ⟨Int.floor_le _, Int.lt_floor_add_one _⟩
  have hrate : Search.initial.rate = 10000 := rfl
  by_cases hmax : 10000 ≤ C
  · have hla := la.mpr hmax
    refine ⟨10000, ?_, fun _ => rfl, fun h => absurd h (by linarith), hfl _⟩
    rw [search, stepsCount, searchFrom, hrate]
    simp only [e, if_neg hl1, if_neg hl2]
    rw [if_pos (.inr ⟨hla, by simp [Search.next, if_pos hla, Search.initial]⟩)]
    simp [Search.next, if_pos hla, Search.initial, rateMax]
  · have hn : ¬ l ≤ acceptable := fun h => hmax (la.mp h)
    have hlt : C < 10000 := lt_of_not_ge hmax
    have inv : Inv acceptable C trial 2 (Search.initial.next acceptable l) := by
      simp only [Search.next, if_neg hn, Search.initial, rateMax, rateMin]
      exact ⟨rfl, by linarith, hlt, by norm_num, by norm_num, .inr rfl, fun _ => ⟨1, hl⟩⟩
    obtain ⟨b, hb, h⟩ := search_inv hc hC 8 2 _ (by omega) (by omega) inv
    refine ⟨b, ?_, fun h => absurd h hmax, fun _ => h, hfl _⟩
    rw [search, stepsCount, searchFrom, hrate]
    simp only [e, if_neg hl1, if_neg hl2]
    rw [if_neg (by rintro (h | h); · simp [stepsCount] at h
                   · exact hn h.1)]
    exact hb

/-- A network function that forwards at most 3000 Mb/s in each direction. -/
example : Capacity 0 3000 (fun _ r => [(r * 1000000 / (84 * 8) * 30, min r 3000 * 1000000 / (84 * 8) * 30)]) := by
  have key : ∀ r : ℚ, 625 / 8 ≤ r → meanLoss [(r * 1000000 / (84 * 8) * 30, min r 3000 * 1000000 / (84 * 8) * 30)] = 1 - min r 3000 / r := by
    intro r hr
    have : r ≠ 0 := by linarith
    simp [meanLoss]
    field_simp
  refine ⟨?_, ?_, ?_, ?_⟩
  · intro _ r hr x hx
    simp only [List.mem_singleton] at hx
    subst hx
    dsimp only
    have : (0 : ℚ) ≤ r * 1000000 / (84 * 8) * 30 := by positivity
    linarith
  · intro _ r hr
    rw [key r hr]
    have : 0 < min r 3000 / r := div_pos (lt_min (by linarith) (by norm_num)) (by linarith)
    linarith
  · intro _ r hr
    rw [key r hr, sub_nonpos, one_le_div (by linarith), le_min_iff]
    simp
  · intro _ _ r r' hr hlt
    rw [key r hr, key r' (by linarith)]
    have : min r' 3000 / r' ≤ min r 3000 / r := by
      rw [div_le_div_iff₀ (by linarith) (by linarith)]
      rcases le_total r 3000 with h | h
      · rw [min_eq_left h, mul_comm r r']
        exact le_trans (mul_le_mul_of_nonneg_right (min_le_left _ _) (by linarith)) (le_refl _)
      · rw [min_eq_right h, min_eq_right (by linarith)]
        linarith
    linarith

/-- At a slower network function the search fails: even if the generator sends all that it is told to, the script takes the generator for
too slow, because the rate that it is told is rounded down. -/
theorem C85_search_slow_fails {acceptable : ℚ} {trial : Nat → ℚ → List (ℚ × ℚ)}
    (h0 : ∀ i r, trial i r ≠ []) (hgen : ∀ i r, ∀ x ∈ trial i r, x.1 ≤ packetsAt (moongenRate r) 30000)
    (hslow : ∀ i r, 625 / 8 ≤ r → acceptable < meanLoss (trial i r)) :
    search acceptable trial = .fatal :=
  slow_steps h0 hgen hslow 8 1 _ (by omega) (by omega) rfl (by simp [Search.initial, rateMax])

/-- A network function that loses half of the packets at all rates. -/
example : ∀ i r, 625 / 8 ≤ r → (3 / 1000 : ℚ) < meanLoss ((fun _ r => [(packetsAt (moongenRate r) 30000, packetsAt (moongenRate r) 30000 / 2)] : Nat → ℚ → List (ℚ × ℚ)) i r) := by
  intro _ r hr
  have hm : 1 ≤ moongenRate r := by
    rw [moongenRate]
    split
    · norm_num
    · rename_i h
      rw [not_lt] at h
      have : (1 : ℤ) ≤ ⌊r * 1024 * 1024 / 8 / (packetSize + 24) * (packetSize + 4) * 8 / (1024 * 1024)⌋ := by
        rw [Int.le_floor]
        push_cast
        linarith
      exact_mod_cast this
  have hp : 0 < packetsAt (moongenRate r) 30000 := by
    rw [packetsAt]
    positivity
  simp only [meanLoss, List.map_cons, List.map_nil, List.sum_cons, List.sum_nil, List.length_cons, List.length_nil]
  rw [show packetsAt (moongenRate r) 30000 - packetsAt (moongenRate r) 30000 / 2 = packetsAt (moongenRate r) 30000 / 2 by ring, div_right_comm,
    div_self (ne_of_gt hp)]
  norm_num

/-- From a rate of 65.625 Mb/s on, a generator that sends at the rate that it is told sends enough. -/
theorem C85_generator (rate duration : ℚ) (hr : 525 / 8 ≤ rate) (hd : 0 ≤ duration) (rx : ℚ) :
    (taskLoss (targetTx rate duration) (packetsAt (moongenRate rate) duration, rx)).isSome = true := by
  have hx : rate * 1024 * 1024 / 8 / (packetSize + 24) * (packetSize + 4) * 8 / (1024 * 1024) = rate * 64 / 84 := by
    rw [packetSize]; ring
  have hm : (49 : ℚ) / 50 * (rate * 64 / 84) ≤ moongenRate rate := by
    rw [moongenRate]
    simp only [hx]
    rw [if_neg (by linarith)]
    have := Int.sub_one_lt_floor (rate * 64 / 84)
    linarith
  rw [taskLoss, if_neg, Option.isSome_some]
  rw [not_lt, packetsAt, targetTx, packetSize]
  dsimp only
  have : 98 / 100 * (rate * 1000 * 1000 / ((60 + 24) * 8) * (duration / 1000)) =
      49 / 50 * (rate * 64 / 84) * (1000000 / (8 * 64) * (duration / 1000)) := by ring
  rw [this]
  have h2 := mul_le_mul_of_nonneg_right hm (show (0 : ℚ) ≤ 1000000 / (8 * 64) * (duration / 1000) by positivity)
  refine le_trans h2 (le_of_eq ?_)
  ring

/-- The rates of the heatup and of the fastest trial. -/
example : (525 / 8 : ℚ) ≤ 100 ∧ moongenRate 100 = 76 ∧ moongenRate 10000 = 7619 := by
  refine ⟨by norm_num, ?_, ?_⟩ <;> (rw [moongenRate, packetSize]; norm_num)

/-! ### The loads of the latency measurements -/

namespace BenchProofs

theorem guesses_eq {best : ℚ} (hb : 0 ≤ best) : ∀ (k m : Nat), m + k = ⌊best / 500⌋₊ + 2 → m ≤ ⌊best / 500⌋₊ + 1 →
    guesses best k (500 * m) = (List.range' m (⌊best / 500⌋₊ + 1 - m)).map fun j : Nat => (500 * j : ℚ) := by
  intro k
  have hfl : ∀ m : Nat, m ≤ ⌊best / 500⌋₊ ↔ (500 * m : ℚ) ≤ best := fun m => by
    rw [Nat.le_floor_iff (by positivity), le_div_iff₀ (by norm_num)]
    constructor <;> intro h <;> linarith
  induction k with
  | zero => intro m h1 h2; omega
  | succ k ih =>
    intro m h1 h2
    rw [guesses]
    by_cases h : m ≤ ⌊best / 500⌋₊
    · rw [if_pos ((hfl m).mp h), show ⌊best / 500⌋₊ + 1 - m = (⌊best / 500⌋₊ + 1 - (m + 1)) + 1 by omega, List.range'_succ, List.map_cons]
      rw [← ih (m + 1) (by omega) (by omega), loadIncrement]
      push_cast
      ring_nf
    · rw [if_neg (fun h' => h ((hfl m).mpr h')), show ⌊best / 500⌋₊ + 1 - m = 0 by omega]
      rfl

theorem latencyRates_eq {best : ℚ} (hb : 0 ≤ best) :
    latencyRates best = ((List.range (⌊best / 500⌋₊ + 1)).map fun j : Nat => (500 * j : ℚ)) ++
      if 500 * (⌊best / 500⌋₊ : ℚ) ≤ best - 100 then [best] else [] := by
  have h := guesses_eq hb (⌊best / 500⌋₊ + 2) 0 (by omega) (by omega)
  simp only [Nat.cast_zero, mul_zero, Nat.sub_zero] at h
  rw [latencyRates, loadIncrement, h, ← List.range_eq_range']
  simp only [List.range_succ, List.map_append, List.map_cons, List.map_nil, List.getLast?_append, List.getLast?_singleton, Option.some_or, loadPadding,
    ge_iff_le]
  split <;> simp

end BenchProofs

/-- The loads of the latency measurements begin with none, go up in steps of at most 500, stay below the best rate and come to within
100 of it; the traffic in the background is less than the best rate by at least 100, and it is not negative. -/
theorem C85_latency {best : ℚ} (hb : 0 ≤ best) :
    (latencyRates best).head? = some 0 ∧
    (latencyRates best).IsChain (fun a b => a < b ∧ b ≤ a + 500) ∧
    (∀ r ∈ latencyRates best, 0 ≤ r ∧ r ≤ best ∧ (r ≠ 0 → 0 ≤ backgroundRate r ∧ backgroundRate r ≤ best - 100)) ∧
    (∃ last, (latencyRates best).getLast? = some last ∧ best < last + 100) := by
  have hf1 : 500 * (⌊best / 500⌋₊ : ℚ) ≤ best := by
    have := Nat.floor_le (show 0 ≤ best / 500 by positivity)
    linarith
  have hf2 : best < 500 * (⌊best / 500⌋₊ : ℚ) + 500 := by
    have := Nat.lt_floor_add_one (best / 500)
    linarith
  have hchain : ((List.range (⌊best / 500⌋₊ + 1)).map fun j : Nat => (500 * j : ℚ)).IsChain (fun a b => a < b ∧ b ≤ a + 500) := by
    rw [List.isChain_map, List.isChain_iff_getElem]
    intro i hi
    simp only [List.getElem_range]
    push_cast
    constructor <;> linarith
  have hlast : ((List.range (⌊best / 500⌋₊ + 1)).map fun j : Nat => (500 * j : ℚ)).getLast? = some (500 * (⌊best / 500⌋₊ : ℚ)) := by
    simp [List.range_succ]
  have hmem : ∀ r ∈ (List.range (⌊best / 500⌋₊ + 1)).map fun j : Nat => (500 * j : ℚ), 0 ≤ r ∧ r ≤ best ∧ (r ≠ 0 → 500 ≤ r) := by
    intro r hr
    obtain ⟨j, hj, rfl⟩ := List.mem_map.mp hr
    have hj : j ≤ ⌊best / 500⌋₊ := by have := List.mem_range.mp hj; omega
    have hjq : (j : ℚ) ≤ ⌊best / 500⌋₊ := by exact_mod_cast hj
    refine ⟨by positivity, by linarith, fun h => ?_⟩
    have : 1 ≤ j := Nat.one_le_iff_ne_zero.mpr fun h' => h (by simp [h'])
    have : (1 : ℚ) ≤ j := by exact_mod_cast this
    linarith
  rw [latencyRates_eq hb]
  refine ⟨?_, ?_, ?_, ?_⟩
  · rw [List.range_succ_eq_map]; simp
  · split
    · rename_i h
      rw [List.isChain_append]
      refine ⟨hchain, by simp, ?_⟩
      intro x hx y hy
      rw [hlast] at hx
      simp only [Option.mem_def, Option.some.injEq, List.head?_cons] at hx hy
      subst hx hy
      constructor <;> linarith
    · rw [List.append_nil]; exact hchain
  · intro r hr
    rcases List.mem_append.mp hr with hr | hr
    · obtain ⟨h0, h1, h2⟩ := hmem r hr
      refine ⟨h0, h1, fun h => ?_⟩
      have := h2 h
      rw [backgroundRate, loadPadding]
      constructor <;> linarith
    · split at hr
      · rename_i h
        simp only [List.mem_singleton] at hr
        subst hr
        refine ⟨hb, le_refl _, fun _ => ?_⟩
        have : (0 : ℚ) ≤ ⌊r / 500⌋₊ := by positivity
        rw [backgroundRate, loadPadding]
        constructor <;> linarith
      · simp at hr
  · split
    · exact ⟨best, by simp, by linarith⟩
    · rename_i h
      exact ⟨_, by rw [List.append_nil]; exact hlast, by linarith⟩

example : latencyRates 1250 = [0, 500, 1000, 1250] ∧ latencyRates 1050 = [0, 500, 1000] := by
  have h1 : ⌊(1250 : ℚ) / 500⌋₊ = 2 := by rw [Nat.floor_eq_iff (by norm_num)]; norm_num
  have h2 : ⌊(1050 : ℚ) / 500⌋₊ = 2 := by rw [Nat.floor_eq_iff (by norm_num)]; norm_num
  constructor
  · rw [latencyRates_eq (by norm_num), h1]; norm_num [List.range_succ]
  · rw [latencyRates_eq (by norm_num), h2]; norm_num [List.range_succ]

/-! ### The packets -/

namespace BenchProofs

theorem countersFrom_length (flows batch : Nat) : ∀ n c b, (countersFrom flows batch n c b).length = n
  | 0, _, _ => rfl
  | n + 1, c, b => by
    rw [countersFrom]
    split <;> simp [countersFrom_length flows batch n]

theorem countersFrom_get {flows batch : Nat} (hb : 0 < batch) : ∀ (n i m : Nat), i < n →
    (countersFrom flows batch n (m / batch % flows) (m % batch))[i]? = some ((m + i) / batch % flows) := by
  intro n
  induction n with
  | zero => intro i m h; omega
  | succ n ih =>
    intro i m h
    rw [countersFrom]
    cases i with
    | zero => simp
    | succ i =>
      rw [List.getElem?_cons_succ]
      have key : (if m % batch + 1 = batch then countersFrom flows batch n ((m / batch % flows + 1) % flows) 0
          else countersFrom flows batch n (m / batch % flows) (m % batch + 1)) =
          countersFrom flows batch n ((m + 1) / batch % flows) ((m + 1) % batch) := by
        have hdm := Nat.div_add_mod m batch
        have hlt := Nat.mod_lt m hb
        split
        · rename_i he
          have h1 : m + 1 = batch * (m / batch + 1) := by rw [Nat.mul_add]; omega
          rw [h1, Nat.mul_div_cancel_left _ hb, Nat.mul_mod_right, Nat.mod_add_mod]
        · rename_i he
          have h1 : m + 1 = (m % batch + 1) + batch * (m / batch) := by omega
          have h2 : (m + 1) / batch = m / batch := by
            rw [h1, Nat.add_mul_div_left _ _ hb, Nat.div_eq_of_lt (by omega)]; omega
          have h3 : (m + 1) % batch = m % batch + 1 := by
            rw [h1, Nat.add_mul_mod_self_left, Nat.mod_eq_of_lt (by omega)]
          rw [h2, h3]
      rw [key, ih i (m + 1) (by omega)]
      congr 3
      omega

end BenchProofs

/-- Of the packets of a task, each batch has the next flow, and the flows repeat. -/
theorem C85_counters {flows batch : Nat} (hb : 0 < batch) (n : Nat) :
    (counters flows batch n).length = n ∧ ∀ i < n, (counters flows batch n)[i]? = some (i / batch % flows) := by
  refine ⟨countersFrom_length _ _ _ _ _, fun i hi => ?_⟩
  have := countersFrom_get (flows := flows) hb n i 0 hi
  simpa [counters] using this

example : counters 3 2 7 = [0, 0, 1, 1, 2, 2, 0] := by decide

/-- The heatup sends a batch of packets of every flow, up to 65536 flows, in the order of their numbers; it does if it sends enough
packets not to be an error. -/
theorem C85_heatup {flows n : Nat} (hf : flows ≤ 65536) {rx : ℚ} (hn : (taskLoss (targetTx heatupRate heatupDuration) (n, rx)).isSome = true) :
    ∀ c < flows, ∀ j < 8, (counters flows heatupBatch n)[8 * c + j]? = some c := by
  intro c hc j hj
  have hbig : 524288 ≤ n := by
    rw [taskLoss] at hn
    split at hn
    · cases hn
    rename_i h
    rw [not_lt, targetTx, heatupRate, heatupDuration, packetSize] at h
    have : (524288 : ℚ) ≤ n := by
      refine le_trans ?_ h
      norm_num
    exact_mod_cast this
  rw [(C85_counters (flows := flows) (by simp [heatupBatch]) n).2 _ (by omega), heatupBatch]
  congr 1
  rw [show (8 * c + j) / 8 = c by omega, Nat.mod_eq_of_lt hc]

/-- The usual number of flows, and all packets of five seconds. -/
example : (60000 : Nat) ≤ 65536 ∧ (taskLoss (targetTx heatupRate heatupDuration) ((744047 : Nat), 744047)).isSome = true := by
  refine ⟨by norm_num, ?_⟩
  rw [taskLoss, if_neg]
  · rfl
  · rw [targetTx, heatupRate, heatupDuration, packetSize]
    norm_num

namespace BenchSpec

/-- An encoding of addresses in four bytes. -/
def Encoding.Ok (e : Encoding) : Prop := (∀ n, (e.ip n).length = 4) ∧ ∀ m n, m < 65536 → n < 65536 → e.ip m = e.ip n → m = n

end BenchSpec

namespace BenchProofs

theorem toNat_inj {a b : UInt8} (h : a.toNat = b.toNat) : a = b := UInt8.toNat_inj.mp h

theorem portBytes_inj {m n : Nat} (hm : m < 65536) (hn : n < 65536) (h : field (portBytes m) 0 = field (portBytes n) 0)
    (h' : field (portBytes m) 1 = field (portBytes n) 1) : m = n := by
  simp only [field, portBytes, List.getElem?_cons_zero, List.getElem?_cons_succ, Option.getD_some] at h h'
  have h := congrArg UInt8.toNat h
  have h' := congrArg UInt8.toNat h'
  simp only [UInt8.toNat_ofNat', Nat.reducePow] at h h'
  omega

theorem four {l l' : List UInt8} (h : l.length = 4) (h' : l'.length = 4) (h0 : field l 0 = field l' 0) (h1 : field l 1 = field l' 1)
    (h2 : field l 2 = field l' 2) (h3 : field l 3 = field l' 3) : l = l' := by
  match l, l', h, h' with
  | [a, b, c, d], [a', b', c', d'], _, _ => simp_all [field]

theorem isTcpUdp_packet (e : Encoding) (layer : Nat) (x : Sent) : isTcpUdp (packet e layer x) := by
  simp [isTcpUdp, PacketSpec.isIpv4, PacketSpec.byte, packet, bytes]

theorem word_eq {a b c d : UInt8} (h : a.toNat + 256 * b.toNat = c.toNat + 256 * d.toNat) : a = c ∧ b = d := by
  have := UInt8.toNat_lt a
  have := UInt8.toNat_lt c
  exact ⟨toNat_inj (by omega), toNat_inj (by omega)⟩

theorem dword_eq {a b c d a' b' c' d' : UInt8}
    (h : a.toNat + 256 * b.toNat + 65536 * c.toNat + 16777216 * d.toNat = a'.toNat + 256 * b'.toNat + 65536 * c'.toNat + 16777216 * d'.toNat) :
    a = a' ∧ b = b' ∧ c = c' ∧ d = d' := by
  have := UInt8.toNat_lt a
  have := UInt8.toNat_lt b
  have := UInt8.toNat_lt c
  have := UInt8.toNat_lt a'
  have := UInt8.toNat_lt b'
  have := UInt8.toNat_lt c'
  exact ⟨toNat_inj (by omega), toNat_inj (by omega), toNat_inj (by omega), toNat_inj (by omega)⟩

end BenchProofs

/-- All packets of the benchmark are UDP packets over IPv4; those of one direction belong to the flows of the other, reversed, and they
have the addresses of the other, swapped. -/
theorem C85_reverse (e : Encoding) (layer : Nat) (x y : Sent) (hx : x.direction = 0) (hy : y.direction = 1) (hc : x.counter = y.counter) :
    isTcpUdp (packet e layer x) ∧ isTcpUdp (packet e layer y) ∧ flow (packet e layer y) = PacketSpec.reverse (flow (packet e layer x)) ∧
    ∀ i < 6, (packet e layer y).data i = (packet e layer x).data (6 + i) ∧ (packet e layer y).data (6 + i) = (packet e layer x).data i := by
  refine ⟨isTcpUdp_packet _ _ _, isTcpUdp_packet _ _ _, ?_, ?_⟩
  · simp only [flow, PacketSpec.reverse, PacketSpec.dword, PacketSpec.word, PacketSpec.byte, packet, bytes, packetConfig, packetInit, hx, hy, hc]
    by_cases h2 : layer = 2
    · simp [h2, field]
    by_cases h3 : layer = 3
    · simp [h3, field]
    · simp [h2, h3, field]
  · intro i hi
    simp only [packet, bytes, packetConfig, packetInit, hx, hy, hc]
    by_cases h2 : layer = 2
    · simp [h2, hi, show ¬ 6 + i < 6 by omega, show 6 + i < 12 by omega]
    by_cases h3 : layer = 3
    · simp [h3, hi, show ¬ 6 + i < 6 by omega, show 6 + i < 12 by omega]
    · simp [h2, h3, hi, show ¬ 6 + i < 6 by omega, show 6 + i < 12 by omega]

/-- At layers 3 and 4, packets of one direction with different counters belong to different flows. -/
theorem C85_distinct {e : Encoding} (he : Encoding.Ok e) {layer : Nat} (hl : layer = 3 ∨ layer = 4) {x y : Sent} (hx : x.direction = y.direction)
    (hcx : x.counter < 65536) (hcy : y.counter < 65536) (h : flow (packet e layer x) = flow (packet e layer y)) : x.counter = y.counter := by
  simp only [flow, PacketSpec.dword, PacketSpec.word, PacketSpec.byte, packet, Nf.Flow.mk.injEq] at h
  obtain ⟨h1, h2, h3, h4, -⟩ := h
  have h1 := dword_eq h1
  have h2 := dword_eq h2
  have h3 := word_eq h3
  have h4 := word_eq h4
  rcases hl with rfl | rfl
  · apply he.2 _ _ hcx hcy
    apply four (he.1 _) (he.1 _) <;> by_cases hd : y.direction = 0 <;> simp_all [bytes, packetConfig, packetInit]
  · apply portBytes_inj hcx hcy <;> by_cases hd : y.direction = 0 <;> simp_all [bytes, packetConfig, packetInit]

/-- Addresses 10.0.x.y, and two packets of a flow in the two directions. -/
example : Encoding.Ok ⟨fun _ => [], fun n => [10, 0, UInt8.ofNat (n / 256), UInt8.ofNat n]⟩ ∧
    (flow (packet ⟨fun _ => [], fun n => [10, 0, UInt8.ofNat (n / 256), UInt8.ofNat n]⟩ 4 ⟨1, 258, 0, 60, fun _ => 0⟩)).dstPort = 258 := by
  refine ⟨⟨fun _ => rfl, fun m n hm hn h => ?_⟩, by decide⟩
  simp only [List.cons.injEq, true_and, and_true] at h
  have h1 := congrArg UInt8.toNat h.1
  have h2 := congrArg UInt8.toNat h.2
  simp only [UInt8.toNat_ofNat', Nat.reducePow] at h1 h2
  omega

/-! ### The firewall under the benchmark -/

namespace BenchSpec

/-- A trace: packets of both directions, of the given flows, in the order of their times. -/
structure Trace (flows : Nat) (xs : List Sent) : Prop where
  sorted : xs.Pairwise fun x y => x.time ≤ y.time
  packets : ∀ x ∈ xs, x.direction < 2 ∧ x.counter < flows ∧ x.time < timeMax

/-- Each packet of direction 1 follows another packet of its flow, in either direction, by at most the expiration time. -/
def Fed (exp : Nat) (xs : List Sent) : Prop :=
  ∀ pre x post, xs = pre ++ x :: post → x.direction = 1 → ∃ y ∈ pre, y.counter = x.counter ∧ x.time ≤ y.time + exp

end BenchSpec

namespace BenchProofs

/-- The flow with number `c`, as direction 0 sends it. -/
def flowOf (e : Encoding) (layer c : Nat) : Flow := flow (packet e layer ⟨0, c, 0, 0, fun _ => 0⟩)

theorem flow_packet (e : Encoding) (layer : Nat) {x : Sent} (h : x.direction = 0) : flow (packet e layer x) = flowOf e layer x.counter := by
  simp [flowOf, flow, PacketSpec.dword, PacketSpec.word, PacketSpec.byte, packet, bytes, h]

theorem reverse_packet (e : Encoding) (layer : Nat) {x : Sent} (h : x.direction = 1) :
    PacketSpec.reverse (flow (packet e layer x)) = flowOf e layer x.counter := by
  rw [(C85_reverse e layer ⟨0, x.counter, 0, 0, fun _ => 0⟩ x rfl h rfl).2.2.1, flowOf]
  rfl

theorem monoFrom_of_sorted (e : Encoding) (layer : Nat) : ∀ {xs : List Sent} {now : Nat}, (xs.Pairwise fun x y => x.time ≤ y.time) →
    (∀ x ∈ xs, now ≤ x.time) → MonoFrom now (xs.map (packet e layer))
  | [], _, _, _ => trivial
  | x :: xs, now, h, hn => by
    rw [List.pairwise_cons] at h
    exact ⟨hn x (by simp), monoFrom_of_sorted e layer h.2 h.1⟩

structure FwInv (e : Encoding) (layer flows exp now : Nat) (pre : List Sent) (s : GMap Flow Nat) : Prop where
  dist : s.Distinct
  keys : ∀ k, (s.get k).isSome = true → ∃ c < flows, k = flowOf e layer c
  recent : ∀ y ∈ pre, now ≤ y.time + exp → ∃ v, s.get (flowOf e layer y.counter) = some v ∧ y.time ≤ v
  past : ∀ y ∈ pre, y.time ≤ now

theorem FwInv.room {e : Encoding} {layer flows exp now : Nat} {pre : List Sent} {s : GMap Flow Nat} (inv : FwInv e layer flows exp now pre s)
    {time c : Nat} (hc : c < flows) (hn : Expiring.mem exp time s (flowOf e layer c) = false) : (Expiring.live exp time s).length < flows := by
  have hd : GMap.Distinct (Expiring.live exp time s) := Nf.distinct_filter inv.dist _
  have hsub : (flowOf e layer c :: (Expiring.live exp time s).map Prod.fst) ⊆ (List.range flows).map (flowOf e layer) := by
    intro k hk
    rcases List.mem_cons.mp hk with rfl | hk
    · exact List.mem_map.mpr ⟨c, List.mem_range.mpr hc, rfl⟩
    · have : (GMap.get (Expiring.live exp time s) k).isSome = true := by
        cases h : GMap.get (Expiring.live exp time s) k with
        | none => exact absurd hk ((GMap.get_eq_none_iff _ _).mp h)
        | some v => rfl
      rw [Nf.get_live inv.dist] at this
      cases h : s.get k with
      | none => simp [h] at this
      | some v =>
        obtain ⟨c, hc, rfl⟩ := inv.keys k (by simp [h])
        exact List.mem_map.mpr ⟨c, List.mem_range.mpr hc, rfl⟩
  have hnd : (flowOf e layer c :: (Expiring.live exp time s).map Prod.fst).Nodup := by
    rw [List.nodup_cons]
    refine ⟨?_, hd⟩
    rw [← GMap.get_eq_none_iff]
    simpa [Expiring.mem] using hn
  have := (List.subperm_of_subset hnd hsub).length_le
  simp at this
  omega

theorem FwInv.touch {e : Encoding} {layer flows exp now : Nat} {pre : List Sent} {s : GMap Flow Nat} (inv : FwInv e layer flows exp now pre s)
    {x : Sent} (hc : x.counter < flows) (hm : now ≤ x.time) :
    FwInv e layer flows exp x.time (pre ++ [x]) (Expiring.touch exp x.time s (flowOf e layer x.counter)) := by
  have hd : GMap.Distinct (Expiring.live exp x.time s) := Nf.distinct_filter inv.dist _
  refine ⟨GMap.distinct_set hd _ _, ?_, ?_, ?_⟩
  · intro k hk
    rw [Expiring.touch, GMap.get_set] at hk
    split at hk
    · rename_i h; exact ⟨_, hc, h.symm⟩
    · rw [Nf.get_live inv.dist] at hk
      refine inv.keys k ?_
      cases h : s.get k with
      | none => simp [h] at hk
      | some v => rfl
  · intro y hy hf
    rw [Expiring.touch, GMap.get_set]
    rcases List.mem_append.mp hy with hy | hy
    · split
      · exact ⟨_, rfl, by have := inv.past y hy; omega⟩
      · obtain ⟨v, hv, hle⟩ := inv.recent y hy (by omega)
        refine ⟨v, ?_, hle⟩
        rw [Nf.get_live inv.dist, hv]
        simp [Option.filter, Expiring.fresh]
        omega
    · simp only [List.mem_singleton] at hy
      subst hy
      rw [if_pos rfl]
      exact ⟨_, rfl, le_refl _⟩
  · intro y hy
    rcases List.mem_append.mp hy with hy | hy
    · have := inv.past y hy; omega
    · simp only [List.mem_singleton] at hy; subst hy; exact le_refl _

theorem FwInv.mem {e : Encoding} {layer flows exp now : Nat} {pre : List Sent} {s : GMap Flow Nat} (inv : FwInv e layer flows exp now pre s)
    {y : Sent} (hy : y ∈ pre) {time : Nat} (hn : now ≤ time) (hf : time ≤ y.time + exp) : Expiring.mem exp time s (flowOf e layer y.counter) = true := by
  obtain ⟨v, hv, hle⟩ := inv.recent y hy (by omega)
  rw [Expiring.mem, Nf.get_live inv.dist, hv]
  simp [Option.filter, Expiring.fresh]
  omega

theorem firewall_bench {e : Encoding} {layer flows size exp : Nat} (hsize : flows ≤ size) : ∀ (xs pre : List Sent) (now : Nat) (s : GMap Flow Nat),
    FwInv e layer flows exp now pre s → Trace flows (pre ++ xs) → Fed exp (pre ++ xs) → (∀ x ∈ xs, now ≤ x.time) →
    FirewallSpec.outputs size 1 exp s (xs.map (packet e layer)) = xs.map fun x => [Out.transmit (packet e layer x) (1 - x.direction) false] := by
  intro xs
  induction xs with
  | nil => intro pre now s _ _ _ _; rfl
  | cons x xs ih =>
    intro pre now s inv ht hf hn
    have htu : isTcpUdp (packet e layer x) := isTcpUdp_packet e layer x
    have hdev : (packet e layer x).device = x.direction := rfl
    have htime : (packet e layer x).time = x.time := rfl
    obtain ⟨hd, hc, -⟩ := ht.packets x (by simp)
    have hx := hn x (by simp)
    have step : FirewallSpec.admits 1 exp s (packet e layer x) = true ∧
        FirewallSpec.next size 1 exp s (packet e layer x) = Expiring.touch exp x.time s (flowOf e layer x.counter) := by
      rw [FirewallSpec.admits, FirewallSpec.next, hdev, htime]
      by_cases h0 : x.direction = 0
      · refine ⟨by simp [htu, h0], ?_⟩
        rw [if_neg (by simpa using htu), if_pos (by omega), flow_packet e layer h0, Expiring.learn, if_pos]
        cases hm : Expiring.mem exp x.time s (flowOf e layer x.counter) with
        | true => exact .inl rfl
        | false => exact .inr (lt_of_lt_of_le (inv.room hc hm) hsize)
      · have h1 : x.direction = 1 := by omega
        obtain ⟨y, hy, hyc, hyt⟩ := hf pre x xs rfl h1
        have hm := inv.mem hy hx hyt
        rw [hyc] at hm
        rw [reverse_packet e layer h1, if_neg (by simpa using htu), if_neg (by omega), if_pos hm, hm]
        exact ⟨by simp [htu], rfl⟩
    rw [List.map_cons, FirewallSpec.outputs, if_pos step.1, step.2, List.map_cons, hdev]
    congr 1
    have h1 : pre ++ x :: xs = (pre ++ [x]) ++ xs := by simp
    refine ih (pre ++ [x]) x.time _ (inv.touch hc hx) (h1 ▸ ht) (h1 ▸ hf) ?_
    have := (List.pairwise_append.mp ht.sorted).2.1
    exact (List.pairwise_cons.mp this).1

end BenchProofs

/-- The firewall lets all packets of the benchmark through, whatever the layer, if it has room for the flows and each packet of direction 1
follows another packet of its flow by at most the expiration time. -/
theorem C85_firewall (e : Encoding) (layer : Nat) {flows size exp : Nat} {xs : List Sent} (hsize : flows ≤ size) (ht : Trace flows xs) (hf : Fed exp xs) :
    ∃ tb tb', Nf.Firewall.init exp size = some tb ∧ Nf.Firewall.run 1 tb (xs.map (packet e layer)) =
      some (tb', xs.map fun x => [Out.transmit (packet e layer x) (1 - x.direction) false]) := by
  obtain ⟨tb, tb', h1, h2⟩ := C42_firewall_refines_expiring_set size exp 1 (xs.map (packet e layer))
    (monoFrom_of_sorted e layer ht.sorted fun _ _ => Nat.zero_le _) (fun p hp => by
      obtain ⟨x, hx, rfl⟩ := List.mem_map.mp hp
      exact ⟨(ht.packets x hx).2.2, (ht.packets x hx).1⟩)
  refine ⟨tb, tb', h1, ?_⟩
  rw [h2, firewall_bench hsize xs [] 0 []]
  · exact ⟨List.nodup_nil, by simp [GMap.get], by simp, by simp⟩
  · exact ht
  · exact hf
  · intro _ _; exact Nat.zero_le _

/-! ### The address translator under the benchmark -/

namespace BenchSpec

/-- A flow is new only after the one with the number before it, by at most the expiration time. -/
def InOrder (exp : Nat) (xs : List Sent) : Prop :=
  ∀ pre x post, xs = pre ++ x :: post → x.direction = 0 → (∀ y ∈ pre, y.counter ≠ x.counter) →
    x.counter = 0 ∨ ∃ y ∈ pre, y.counter + 1 = x.counter ∧ x.time ≤ y.time + exp

/-- What should come out for a packet: to the outside with the number of the flow as the port, to the inside with the address and port
that the flow has inside. (Of the source address, the code overwrites two bytes, see C44.) -/
def Translated (externalAddr : Nat) (p : Packet) (x : Sent) (o : List Out) : Prop :=
  ∃ q, o = [Out.transmit q (1 - x.direction) true] ∧
    if x.direction = 0 then NatSpec.Outbound ⟨externalAddr, 1, 65536, 0⟩ p q x.counter
    else PacketSpec.dword q 30 = PacketSpec.dword p 30 ∧ PacketSpec.word q 36 = x.counter ∧ PacketSpec.word q 34 = PacketSpec.word p 34

end BenchSpec

namespace BenchProofs
open Verif.IndexPool

theorem borrow_next {p : Pool} {size exp time m : Nat} (hs : p.size = size) (he : p.exp = exp) (hl : p.timestamps.length = size)
    (hb : p.lastBorrowed = m - 1) (hm : m < size) (hfree : Nf.stamp p m = none)
    (hprev : m = 0 ∨ ∃ t, Nf.stamp p (m - 1) = some t ∧ time ≤ t + exp) : borrow p time = some (take p time m, some (m, false)) := by
  have hget : p.timestamps[m]? = some TIME_MAX := by
    have h : p.timestamps[m]? = some p.timestamps[m] := List.getElem?_eq_getElem (by omega)
    rw [Nf.stamp, h] at hfree
    by_cases h' : p.timestamps[m] = TIME_MAX
    · rw [h, h']
    · simp [h'] at hfree
  have hscan : scan p time (p.size - p.lastBorrowed) p.lastBorrowed = some (some (m, false)) := by
    rw [hb, hs]
    rcases Nat.eq_zero_or_pos m with h0 | hpos
    · subst h0
      obtain ⟨k, hk⟩ : ∃ k, size - (0 - 1) = k + 1 := ⟨size - 1, by omega⟩
      rw [hk, show 0 - 1 = 0 from rfl, scan, hget]
      simp
    · rcases hprev with h | ⟨t, ht, hf⟩
      · omega
      obtain ⟨k, hk⟩ : ∃ k, size - (m - 1) = k + 1 + 1 := ⟨size - (m - 1) - 2, by omega⟩
      have hp : p.timestamps[m - 1]? = some t ∧ t ≠ TIME_MAX := by
        rw [Nf.stamp] at ht
        cases h : p.timestamps[m - 1]? with
        | none => simp [h] at ht
        | some t' =>
          rw [h] at ht
          by_cases h' : t' = TIME_MAX
          · simp [h'] at ht
          · simp [h'] at ht
            subst ht
            exact ⟨rfl, h'⟩
      rw [hk, scan, hp.1]
      simp only [Option.bind_eq_bind, Option.bind_some, if_neg hp.2]
      rw [if_neg (by rw [he]; omega), show m - 1 + 1 = m by omega, scan, hget]
      simp
  rw [borrow, hscan]
  rfl

theorem insert_pool {tb tb' : Nf.Table Flow} {time m : Nat} {k : Flow} {r : Option Nat} (hb : borrow tb.pool time = some (take tb.pool time m, some (m, false)))
    (h : tb.insert time k = some (tb', r)) : r = some m ∧ tb'.pool = take tb.pool time m := by
  rw [Nf.Table.insert, hb] at h
  simp only [Option.bind_eq_bind, Option.bind_some, Nf.Table.dropOld] at h
  rw [Nf.Table.writeKey] at h
  split at h
  · simp only [Option.bind_some] at h
    cases hs : Nf.CMap.set tb.map k m m with
    | none => simp [hs] at h
    | some map =>
      simp [hs] at h
      exact ⟨h.2.symm, by rw [← h.1]⟩
  · simp at h

structure NatInv (e : Encoding) (flows size exp now m : Nat) (pre : List Sent) (tb : Nf.Table Flow) : Prop where
  inv : Nf.Inv size exp tb
  count : m ≤ flows
  opened : ∀ c < m, ∃ t, Nf.look tb (flowOf e 4 c) = some (c, t) ∧ ∀ y ∈ pre, y.counter = c → y.time ≤ t
  closed : ∀ i, m ≤ i → Nf.stamp tb.pool i = none
  last : tb.pool.lastBorrowed = m - 1
  cover : ∀ c, c < m ↔ ∃ y ∈ pre, y.counter = c
  past : ∀ y ∈ pre, y.time ≤ now

theorem flowOf_inj {e : Encoding} {c d : Nat} (hc : c < 65536) (hd : d < 65536) (h : flowOf e 4 c = flowOf e 4 d) : c = d := by
  rw [flowOf, flowOf] at h
  simp only [flow, PacketSpec.dword, PacketSpec.word, PacketSpec.byte, packet, Nf.Flow.mk.injEq] at h
  have h3 := word_eq h.2.2.1
  apply portBytes_inj hc hd <;> simp_all [bytes, packetConfig, packetInit]

theorem NatInv.new {e : Encoding} {flows size exp now m : Nat} {pre : List Sent} {tb : Nf.Table Flow} (inv : NatInv e flows size exp now m pre tb)
    (hf : flows ≤ 65536) {c : Nat} (hc : m ≤ c) (hc' : c < flows) : Nf.look tb (flowOf e 4 c) = none := by
  cases h : Nf.look tb (flowOf e 4 c) with
  | none => rfl
  | some x =>
    obtain ⟨i, t⟩ := x
    have hs := (Nf.look_some inv.inv h).2
    by_cases hi : i < m
    · obtain ⟨t', ht', -⟩ := inv.opened i hi
      have := inv.count
      have := flowOf_inj (by omega) (by omega) (Nf.look_inj inv.inv h ht')
      omega
    · rw [inv.closed i (by omega)] at hs
      cases hs

/-- A use of a flow that is in the table. -/
theorem NatInv.use {e : Encoding} {flows size exp now m : Nat} {pre : List Sent} {tb : Nf.Table Flow} (inv : NatInv e flows size exp now m pre tb)
    (hf : flows ≤ 65536) {x : Sent} (hc : x.counter < m) (hm : now ≤ x.time) (ht : x.time < timeMax) :
    ∃ tb', tb.refresh x.time x.counter = some tb' ∧ tb'.keys = tb.keys ∧ NatInv e flows size exp x.time m (pre ++ [x]) tb' := by
  obtain ⟨t, hl, -⟩ := inv.opened x.counter hc
  have hcm := inv.count
  obtain ⟨tb', h1, h2, -, -, h3⟩ := Nf.refresh_spec inv.inv hl ht
  have hsize : x.counter < size := (Nf.look_key inv.inv hl).2
  have hpl := inv.inv.plen
  have heq : tb' = { tb with pool := { tb.pool with timestamps := tb.pool.timestamps.set x.counter x.time } } := by
    rw [Nf.Table.refresh, refresh, if_pos (by omega)] at h1
    simp at h1
    exact h1.symm
  refine ⟨tb', h1, by rw [heq], h2, hcm, ?_, ?_, by rw [heq]; exact inv.last, ?_, ?_⟩
  · intro c hc'
    obtain ⟨t', hl', ht'⟩ := inv.opened c hc'
    rw [h3]
    by_cases he : flowOf e 4 c = flowOf e 4 x.counter
    · have := flowOf_inj (by omega) (by omega) he
      subst this
      rw [if_pos rfl]
      refine ⟨_, rfl, fun y hy _ => ?_⟩
      rcases List.mem_append.mp hy with hy | hy
      · have := inv.past y hy; omega
      · simp only [List.mem_singleton] at hy; subst hy; exact le_refl _
    · rw [if_neg he]
      refine ⟨t', hl', fun y hy hyc => ?_⟩
      rcases List.mem_append.mp hy with hy | hy
      · exact ht' y hy hyc
      · simp only [List.mem_singleton] at hy; subst hy; exact absurd (by rw [hyc]) he
  · intro i hi
    rw [heq]
    have := inv.closed i hi
    rw [Nf.stamp] at this ⊢
    rw [List.getElem?_set_ne (by omega)]
    exact this
  · intro c
    rw [inv.cover]
    constructor
    · rintro ⟨y, hy, h⟩; exact ⟨y, by simp [hy], h⟩
    · rintro ⟨y, hy, h⟩
      rcases List.mem_append.mp hy with hy | hy
      · exact ⟨y, hy, h⟩
      · simp only [List.mem_singleton] at hy
        subst hy
        exact (inv.cover c).mp (by omega)
  · intro y hy
    rcases List.mem_append.mp hy with hy | hy
    · have := inv.past y hy; omega
    · simp only [List.mem_singleton] at hy; subst hy; exact le_refl _

/-- A new flow. -/
theorem NatInv.add {e : Encoding} {flows size exp now m : Nat} {pre : List Sent} {tb : Nf.Table Flow} (inv : NatInv e flows size exp now m pre tb)
    (hf : flows ≤ 65536) (hsize : flows ≤ size) {x : Sent} (hc : x.counter = m) (hc' : x.counter < flows) (hm : now ≤ x.time) (ht : x.time < timeMax)
    (hprev : m = 0 ∨ ∃ y ∈ pre, y.counter + 1 = x.counter ∧ x.time ≤ y.time + exp) :
    ∃ tb', tb.insert x.time (flowOf e 4 x.counter) = some (tb', some x.counter) ∧ NatInv e flows size exp x.time (m + 1) (pre ++ [x]) tb' := by
  have hnew := inv.new hf (c := x.counter) (by omega) hc'
  obtain ⟨tb', r, h1, h2, h3⟩ := Nf.insert_spec inv.inv hnew ht
  have hb := borrow_next (time := x.time) inv.inv.psize inv.inv.pexp inv.inv.plen inv.last (by omega) (inv.closed m (le_refl _)) (by
    rcases hprev with h | ⟨y, hy, hyc, hyt⟩
    · exact .inl h
    · right
      obtain ⟨t, hl, hle⟩ := inv.opened (m - 1) (by omega)
      exact ⟨t, (Nf.look_some inv.inv hl).2, by have := hle y hy (by omega); omega⟩)
  obtain ⟨hr, hpool⟩ := insert_pool hb h1
  subst hr
  rcases h3 with ⟨h, -⟩ | ⟨i, h, hi, -, h4, h5⟩
  · cases h
  cases h
  rw [hc] at h1 h4 h5 ⊢
  refine ⟨tb', h1, h2, by omega, ?_, ?_, ?_, ?_, ?_⟩
  · intro c hcm
    by_cases he : c = m
    · subst he
      refine ⟨_, h4, fun y hy _ => ?_⟩
      rcases List.mem_append.mp hy with hy | hy
      · have := inv.past y hy; omega
      · simp only [List.mem_singleton] at hy; subst hy; exact le_refl _
    · obtain ⟨t, hl, hle⟩ := inv.opened c (by omega)
      have hne : flowOf e 4 c ≠ flowOf e 4 m := fun h => he (flowOf_inj (by omega) (by omega) h)
      refine ⟨t, ?_, fun y hy hyc => ?_⟩
      · rw [h5 _ hne, hl]
        simp [Option.filter, he]
      · rcases List.mem_append.mp hy with hy | hy
        · exact hle y hy hyc
        · simp only [List.mem_singleton] at hy; subst hy; omega
  · intro i hi
    rw [hpool]
    have := inv.closed i (by omega)
    rw [Nf.stamp] at this ⊢
    rw [take, List.getElem?_set_ne (by omega)]
    exact this
  · rw [hpool]; simp [take]
  · intro c
    constructor
    · intro h
      by_cases he : c = m
      · exact ⟨x, by simp, by omega⟩
      · obtain ⟨y, hy, hyc⟩ := (inv.cover c).mp (by omega)
        exact ⟨y, by simp [hy], hyc⟩
    · rintro ⟨y, hy, h⟩
      rcases List.mem_append.mp hy with hy | hy
      · have := (inv.cover c).mpr ⟨y, hy, h⟩; omega
      · simp only [List.mem_singleton] at hy; subst hy; omega
  · intro y hy
    rcases List.mem_append.mp hy with hy | hy
    · have := inv.past y hy; omega
    · simp only [List.mem_singleton] at hy; subst hy; exact le_refl _

theorem flow_counter (e : Encoding) {c : Nat} (hc : c < 65536) : (flowOf e 4 c).srcPort = c := by
  simp only [flowOf, flow, PacketSpec.word, PacketSpec.byte, packet, bytes, packetConfig, packetInit, portBytes, field]
  simp [UInt8.toNat_ofNat']
  omega

theorem nat_bench_step {e : Encoding} {flows size exp now m ea : Nat} {pre post : List Sent} {tb : Nf.Table Flow} (hea : ea < 2 ^ 32)
    (hf : flows ≤ 65536) (hsize : flows ≤ size) (inv : NatInv e flows size exp now m pre tb) {x : Sent} (hd : x.direction < 2)
    (hc : x.counter < flows) (hm : now ≤ x.time) (ht : x.time < timeMax) (hfed : Fed exp (pre ++ x :: post)) (hord : InOrder exp (pre ++ x :: post)) :
    ∃ tb' o m', Nf.NatNf.handle ⟨ea, 1, 0⟩ tb (packet e 4 x) = some (tb', o) ∧ Translated ea (packet e 4 x) x o ∧
      NatInv e flows size exp x.time m' (pre ++ [x]) tb' := by
  have hl4 : isTcpUdp (packet e 4 x) := isTcpUdp_packet e 4 x
  have hip : PacketSpec.isIpv4 (packet e 4 x) := hl4.1
  have hdev : (packet e 4 x).device = x.direction := rfl
  have htime : (packet e 4 x).time = x.time := rfl
  by_cases h0 : x.direction = 0
  · have hflow : (⟨Nf.ld32 (packet e 4 x).data (14 + 12), Nf.ld32 (packet e 4 x).data (14 + 16), Nf.ld16 (packet e 4 x).data 34,
        Nf.ld16 (packet e 4 x).data (34 + 2), ((packet e 4 x).data (14 + 9)).toNat⟩ : Flow) = flowOf e 4 x.counter := by
      rw [← flow_packet e 4 h0]
      simp only [Nf.ld32_dword, Nf.ld16_word, flow, PacketSpec.byte]
    have hcm := inv.count
    have hint : ∃ tb' m', Nf.NatNf.getInternal 0 tb x.time (flowOf e 4 x.counter) = some (tb', some x.counter) ∧
        NatInv e flows size exp x.time m' (pre ++ [x]) tb' := by
      have hport : (0 + x.counter % 65536) % 65536 = x.counter := by omega
      by_cases hold : x.counter < m
      · obtain ⟨t, hl, -⟩ := inv.opened x.counter hold
        obtain ⟨tb', h1, -, h2⟩ := inv.use hf hold hm ht
        refine ⟨tb', m, ?_, h2⟩
        have hg : tb.map.get (flowOf e 4 x.counter) = some x.counter := (Nf.look_some inv.inv hl).1
        simp only [Nf.NatNf.getInternal, hg, h1, Option.bind_eq_bind, Option.bind_some, hport]
      · have hno : ∀ y ∈ pre, y.counter ≠ x.counter := fun y hy h => hold ((inv.cover x.counter).mpr ⟨y, hy, h⟩)
        have hprev := hord pre x post rfl h0 hno
        have hxm : x.counter = m := by
          rcases hprev with h | ⟨y, hy, hyc, -⟩
          · omega
          · have := (inv.cover y.counter).mpr ⟨y, hy, rfl⟩; omega
        obtain ⟨tb', h1, h2⟩ := inv.add hf hsize hxm hc hm ht (by
          rcases hprev with h | h
          · exact .inl (by omega)
          · exact .inr h)
        refine ⟨tb', m + 1, ?_, h2⟩
        have hg : tb.map.get (flowOf e 4 x.counter) = none := Nf.get_none_of_look inv.inv (inv.new hf (by omega) hc)
        simp only [Nf.NatNf.getInternal, hg, h1, Option.bind_eq_bind, Option.bind_some, hport]
    obtain ⟨tb', m', h1, h2⟩ := hint
    refine ⟨tb', [Out.transmit { packet e 4 x with data := Nf.NatNf.rewriteOutbound (packet e 4 x).data 14 34 ea x.counter } (1 - x.direction) true],
      m', ?_, ?_, h2⟩
    · simp only [Nf.NatNf.handle, Nf.getIpv4Header_eq, hip, Nf.getTcpudpHeader_eq _ hip, hl4, hdev, h0, if_true, if_false, hflow, htime, h1,
        Option.bind_eq_bind, Option.bind_some, zero_ne_one]
      rw [other_device (by rw [hdev]; omega), hdev, h0]
    · refine ⟨_, rfl, ?_⟩
      · rw [if_pos h0]
        exact outbound_ok ⟨ea, 1, 0⟩ 65536 0 x.counter (packet e 4 x) hea (by omega) hl4
  · have h1 : x.direction = 1 := by omega
    obtain ⟨y, hy, hyc, hyt⟩ := hfed pre x post rfl h1
    have hold : x.counter < m := (inv.cover x.counter).mpr ⟨y, hy, hyc⟩
    obtain ⟨t, hl, hle⟩ := inv.opened x.counter hold
    obtain ⟨tb', hr, hk, h2⟩ := inv.use hf hold hm ht
    have hst := (Nf.look_some inv.inv hl).2
    have hu := Nf.used_eq inv.inv x.time x.counter
    rw [hst] at hu
    have hy' : IndexPoolSpec.young x.time exp t = true := by
      rw [← Nf.fresh_eq_young]
      have := hle y hy hyc
      simp [Expiring.fresh]
      omega
    simp only [hy'] at hu
    have hkey : tb'.keys[x.counter]? = some (flowOf e 4 x.counter) := by rw [hk]; exact (Nf.look_key inv.inv hl).1
    have hrev := reverse_packet e 4 h1
    have hw : PacketSpec.word (packet e 4 x) 36 = x.counter := by
      have := congrArg Flow.srcPort hrev
      rw [flow_counter e (by omega)] at this
      exact this
    have hpeer : ¬ ((flowOf e 4 x.counter).dstIp ≠ PacketSpec.dword (packet e 4 x) (14 + 12) ∨
        (flowOf e 4 x.counter).dstPort ≠ PacketSpec.word (packet e 4 x) 34 ∨
        (flowOf e 4 x.counter).protocol ≠ ((packet e 4 x).data (14 + 9)).toNat) := by
      rw [← hrev, not_or, not_or, not_not, not_not, not_not]
      exact ⟨rfl, rfl, rfl⟩
    have hsrc : (flowOf e 4 x.counter).srcIp = PacketSpec.dword (packet e 4 x) 30 := by rw [← hrev]; rfl
    refine ⟨tb', [Out.transmit { packet e 4 x with data := Nf.NatNf.rewriteInbound (packet e 4 x).data 14 34 (flowOf e 4 x.counter) } (1 - x.direction) true],
      m, ?_, ?_, h2⟩
    · simp only [Nf.NatNf.handle, Nf.getIpv4Header_eq, hip, Nf.getTcpudpHeader_eq _ hip, hl4, hdev, h1, Nf.ld32_dword, Nf.ld16_word,
        show (34 : Nat) + 2 = 36 from rfl, hw, htime, Nf.NatNf.getExternal, show (65536 + x.counter - 0) % 65536 = x.counter by omega, hu, hr, hkey,
        Option.bind_eq_bind, Option.bind_some, ↓reduceIte]
      rw [if_neg hpeer, other_device (by rw [hdev]; omega), hdev, h1]
    · refine ⟨_, rfl, ?_⟩
      rw [if_neg h0]
      have hb1 : (flowOf e 4 x.counter).srcIp < 2 ^ 32 := by rw [hsrc]; exact dword_lt _ _
      have hb2 : (flowOf e 4 x.counter).srcPort < 65536 := by rw [flow_counter e (by omega)]; omega
      obtain ⟨i1, i2, i3, -⟩ := inbound_ok (packet e 4 x) (flowOf e 4 x.counter) hl4 hb1 hb2
      exact ⟨by rw [i1, hsrc], by rw [i2, flow_counter e (by omega)], i3⟩

theorem nat_bench {e : Encoding} {flows size exp ea : Nat} (hea : ea < 2 ^ 32) (hf : flows ≤ 65536) (hsize : flows ≤ size) :
    ∀ (xs pre : List Sent) (now m : Nat) (tb : Nf.Table Flow), NatInv e flows size exp now m pre tb → Trace flows (pre ++ xs) → Fed exp (pre ++ xs) →
    InOrder exp (pre ++ xs) → (∀ x ∈ xs, now ≤ x.time) →
    ∃ tb' os, Nf.NatNf.run ⟨ea, 1, 0⟩ tb (xs.map (packet e 4)) = some (tb', os) ∧ List.Forall₂ (fun x o => Translated ea (packet e 4 x) x o) xs os := by
  intro xs
  induction xs with
  | nil => intro pre now m tb _ _ _ _ _; exact ⟨tb, [], rfl, .nil⟩
  | cons x xs ih =>
    intro pre now m tb inv ht hfed hord hn
    obtain ⟨hd, hc, htm⟩ := ht.packets x (by simp)
    obtain ⟨tb1, o, m', h1, h2, inv'⟩ := nat_bench_step hea hf hsize inv hd hc (hn x (by simp)) htm hfed hord
    have h3 : pre ++ x :: xs = (pre ++ [x]) ++ xs := by simp
    obtain ⟨tb2, os, h4, h5⟩ := ih (pre ++ [x]) x.time m' tb1 inv' (h3 ▸ ht) (h3 ▸ hfed) (h3 ▸ hord) (by
      have := (List.pairwise_append.mp ht.sorted).2.1
      exact (List.pairwise_cons.mp this).1)
    exact ⟨tb2, o :: os, by simp [Nf.NatNf.run, h1, h4], .cons h2 h5⟩

theorem alloc_closed (size exp : Nat) : ∃ tb, Nf.NatNf.init exp size = some tb ∧ ∀ e flows, NatInv e flows size exp 0 0 [] tb := by
  obtain ⟨tb, h1, h2, h3⟩ := Nf.inv_alloc Flow.zero size exp
  refine ⟨tb, h1, fun e flows => ⟨h2, Nat.zero_le _, fun c hc => absurd hc (Nat.not_lt_zero _), ?_, ?_, by simp, by simp⟩⟩
  · intro i _
    by_contra hs
    obtain ⟨t, ht⟩ := Option.ne_none_iff_exists'.mp hs
    obtain ⟨k, -, hk⟩ := Nf.owner h2 ht
    rw [h3] at hk; cases hk
  · rw [Nf.Table.alloc] at h1
    cases hp : IndexPool.alloc size exp with
    | none => simp [hp] at h1
    | some p =>
      simp [hp] at h1
      rw [← h1]
      rw [IndexPool.alloc] at hp
      cases hq : fill size (List.replicate size 0) with
      | none => simp [hq] at hp
      | some ts =>
        simp [hq] at hp
        rw [← hp]

end BenchProofs

/-- The address translator, with the external device and the first port of its configuration, translates all packets of the benchmark at
layer 4, and those of direction 1 get to the flow with their number; it must have room for the flows, and the flows must be opened in the
order of their numbers, as the heatup does. -/
theorem C85_nat (e : Encoding) {flows size exp externalAddr : Nat} {xs : List Sent} (hea : externalAddr < 2 ^ 32) (hf : flows ≤ 65536)
    (hsize : flows ≤ size) (ht : Trace flows xs) (hfed : Fed exp xs) (hord : InOrder exp xs) :
    ∃ tb tb' os, Nf.NatNf.init exp size = some tb ∧ Nf.NatNf.run ⟨externalAddr, 1, 0⟩ tb (xs.map (packet e 4)) = some (tb', os) ∧
      List.Forall₂ (fun x o => Translated externalAddr (packet e 4 x) x o) xs os := by
  obtain ⟨tb, h1, h2⟩ := alloc_closed size exp
  obtain ⟨tb', os, h3, h4⟩ := nat_bench hea hf hsize xs [] 0 0 tb (h2 e flows) ht hfed hord (fun _ _ => Nat.zero_le _)
  exact ⟨tb, tb', os, h1, h3, h4⟩

/-! ### The times of the benchmark -/

namespace BenchSpec

/-- The packets of a task that sends `n` packets from time `start` on, one every `gap`. -/
def task (direction flows batch start gap n : Nat) (length : Nat) (rest : Mem) : List Sent :=
  (List.range n).map fun i => ⟨direction, i / batch % flows, start + i * gap, length, rest⟩

end BenchSpec

namespace BenchProofs

theorem before_of_time {xs pre post : List Sent} {x y : Sent} (hs : xs.Pairwise fun x y => x.time ≤ y.time) (he : xs = pre ++ x :: post) (hy : y ∈ xs)
    (ht : y.time < x.time) : y ∈ pre := by
  subst he
  rcases List.mem_append.mp hy with h | h
  · exact h
  · exfalso
    rw [List.pairwise_append, List.pairwise_cons] at hs
    rcases List.mem_cons.mp h with rfl | h
    · omega
    · have := hs.2.1.1 y h; omega

end BenchProofs

/-- The heatup and a trial feed a flow table: every flow is used in the last pass of the heatup, so that packets of direction 1 find their
flow if a pass of the heatup, the pause after it and a pass of the trial together take at most the expiration time; in the heatup the
flows are opened in order. -/
theorem C85_schedule {flows exp t0 gap0 n t1 gap m length : Nat} {rest : Mem} {others xs : List Sent} (hf : 0 < flows) (hg0 : 0 < gap0) (hg : 0 < gap)
    (hn : 8 * flows ≤ n) (h1 : t0 + n * gap0 ≤ t1) (hothers : ∀ x ∈ others, x.direction = 0 ∧ x.counter < flows ∧ t1 ≤ x.time)
    (hexp : 8 * flows * gap0 + (t1 - (t0 + n * gap0)) + flows * gap ≤ exp) (hs : xs.Pairwise fun x y => x.time ≤ y.time)
    (hxs : xs.Perm (task 0 flows heatupBatch t0 gap0 n length rest ++ task 1 flows 1 t1 gap m length rest ++ others)) : Fed exp xs ∧ InOrder exp xs := by
  have hheat : ∀ i < n, (⟨0, i / 8 % flows, t0 + i * gap0, length, rest⟩ : Sent) ∈ xs := by
    intro i hi
    rw [hxs.mem_iff]
    simp only [task, heatupBatch, List.mem_append, List.mem_map, List.mem_range]
    exact .inl (.inl ⟨i, hi, rfl⟩)
  have hlater : ∀ c < flows, ∃ i < n, i / 8 % flows = c ∧ n ≤ i + 8 * flows := by
    intro c hc
    have hlt : (n - 1 - 8 * c) % (8 * flows) < 8 * flows := Nat.mod_lt _ (by omega)
    have hle : (n - 1 - 8 * c) % (8 * flows) ≤ n - 1 - 8 * c := Nat.mod_le _ _
    refine ⟨n - 1 - (n - 1 - 8 * c) % (8 * flows), by omega, ?_, by omega⟩
    have hd := Nat.div_add_mod (n - 1 - 8 * c) (8 * flows)
    rw [Nat.mul_assoc] at hd
    rw [show n - 1 - (n - 1 - 8 * c) % (8 * flows) = 8 * (c + flows * ((n - 1 - 8 * c) / (8 * flows))) by rw [Nat.mul_add]; omega,
      Nat.mul_div_cancel_left _ (by omega), Nat.add_mul_mod_self_left, Nat.mod_eq_of_lt hc]
  constructor
  · intro pre x post he hd
    have hx : x ∈ xs := by rw [he]; simp
    rw [hxs.mem_iff] at hx
    rcases List.mem_append.mp hx with hx | hx
    swap
    · have := (hothers x hx).1; omega
    rcases List.mem_append.mp hx with hx | hx
    · simp only [task, List.mem_map] at hx
      obtain ⟨i, -, rfl⟩ := hx
      cases hd
    simp only [task, List.mem_map, List.mem_range, Nat.div_one] at hx
    obtain ⟨i, hi, rfl⟩ := hx
    by_cases hif : i < flows
    · obtain ⟨j, hj, hjc, hjn⟩ := hlater i hif
      refine ⟨_, before_of_time hs he (hheat j hj) ?_, ?_, ?_⟩
      · have : j * gap0 < n * gap0 := Nat.mul_lt_mul_of_pos_right hj hg0
        simp only
        omega
      · simp only [hjc, Nat.mod_eq_of_lt hif]
      · have h2 : i * gap ≤ flows * gap := Nat.mul_le_mul_right _ (by omega)
        have h3 : n * gap0 ≤ (j + 8 * flows) * gap0 := Nat.mul_le_mul_right _ hjn
        rw [Nat.add_mul] at h3
        simp only
        omega
    · have hmem : (⟨1, (i - flows) % flows, t1 + (i - flows) * gap, length, rest⟩ : Sent) ∈ xs := by
        rw [hxs.mem_iff]
        simp only [task, List.mem_append, List.mem_map, List.mem_range, Nat.div_one]
        exact .inl (.inr ⟨i - flows, by omega, rfl⟩)
      have hmul : i * gap = (i - flows) * gap + flows * gap := by rw [← Nat.add_mul]; congr 1; omega
      have hpos : 0 < flows * gap := Nat.mul_pos hf hg
      refine ⟨_, before_of_time hs he hmem ?_, ?_, ?_⟩
      · simp only
        omega
      · simp only
        conv_rhs => rw [show i = (i - flows) + flows by omega, Nat.add_mod_right]
      · simp only
        omega
  · intro pre x post he hd hnew
    have hx : x ∈ xs := by rw [he]; simp
    rw [hxs.mem_iff] at hx
    rcases List.mem_append.mp hx with hx | hx
    swap
    · exfalso
      obtain ⟨-, hc, ht⟩ := hothers x hx
      obtain ⟨j, hj, hjc, -⟩ := hlater x.counter hc
      refine hnew _ (before_of_time hs he (hheat j hj) ?_) hjc
      have : j * gap0 < n * gap0 := Nat.mul_lt_mul_of_pos_right hj hg0
      simp only
      omega
    rcases List.mem_append.mp hx with hx | hx
    swap
    · simp only [task, List.mem_map] at hx
      obtain ⟨i, -, rfl⟩ := hx
      cases hd
    simp only [task, heatupBatch, List.mem_map, List.mem_range] at hx
    obtain ⟨i, hi, rfl⟩ := hx
    simp only at hnew ⊢
    by_cases h0 : i / 8 % flows = 0
    · exact .inl h0
    · right
      have h8 : 8 ≤ i := by
        by_contra h
        rw [Nat.div_eq_of_lt (by omega)] at h0
        simp at h0
      refine ⟨_, before_of_time hs he (hheat (i - 8) (by omega)) ?_, ?_, ?_⟩
      · have : (i - 8) * gap0 < i * gap0 := Nat.mul_lt_mul_of_pos_right (by omega) hg0
        simp only
        omega
      · simp only
        have hq : i / 8 = (i - 8) / 8 + 1 := by omega
        have hlt := Nat.mod_lt ((i - 8) / 8) hf
        have hdm := Nat.div_add_mod ((i - 8) / 8) flows
        have hne : (i - 8) / 8 % flows + 1 ≠ flows := by
          intro h
          apply h0
          rw [hq, Nat.add_mod, ← Nat.mod_add_mod, Nat.mod_mod]
          have : ((i - 8) / 8 % flows + 1) % flows = 0 := by rw [h, Nat.mod_self]
          rw [Nat.add_mod_mod]
          exact this
        have h2 : i / 8 % flows = ((i - 8) / 8 % flows + 1) % flows := by rw [hq, Nat.mod_add_mod]
        exact (h2.trans (Nat.mod_eq_of_lt (lt_of_le_of_ne hlt hne))).symm
      · have h3 : i * gap0 = (i - 8) * gap0 + 8 * gap0 := by rw [← Nat.add_mul]; congr 1; omega
        have h4 : 8 * gap0 ≤ 8 * flows * gap0 := Nat.mul_le_mul_right _ (by omega)
        simp only
        omega

namespace BenchProofs

theorem task_sorted (direction flows batch start gap n length : Nat) (rest : Mem) :
    (task direction flows batch start gap n length rest).Pairwise fun x y => x.time ≤ y.time := by
  rw [task, List.pairwise_map]
  exact List.pairwise_lt_range.imp fun h => Nat.add_le_add_left (Nat.mul_le_mul_right _ (Nat.le_of_lt h)) _

/-- The usual benchmark: 60000 flows, an expiration time of four seconds; a trial at 10 Gb/s begins half a second after the heatup. -/
def usual : List Sent := task 0 60000 heatupBatch 0 6720 744047 60 (fun _ => 0) ++ task 1 60000 1 5500000000 68 1000000 60 (fun _ => 0)

theorem usual_ok : Trace 60000 usual ∧ Fed 4000000000 usual ∧ InOrder 4000000000 usual := by
  have hsort : usual.Pairwise fun x y => x.time ≤ y.time := by
    rw [usual, List.pairwise_append]
    refine ⟨task_sorted .., task_sorted .., fun x hx y hy => ?_⟩
    simp only [task, List.mem_map, List.mem_range] at hx hy
    obtain ⟨i, hi, rfl⟩ := hx
    obtain ⟨j, hj, rfl⟩ := hy
    dsimp only
    omega
  refine ⟨⟨hsort, ?_⟩, ?_⟩
  · intro x hx
    rw [usual] at hx
    rcases List.mem_append.mp hx with hx | hx <;> simp only [task, List.mem_map, List.mem_range] at hx <;> obtain ⟨i, hi, rfl⟩ := hx
    · exact ⟨by norm_num, Nat.mod_lt _ (by norm_num), by dsimp only; rw [timeMax]; omega⟩
    · exact ⟨by norm_num, Nat.mod_lt _ (by norm_num), by dsimp only; rw [timeMax]; omega⟩
  · exact C85_schedule (flows := 60000) (exp := 4000000000) (t0 := 0) (gap0 := 6720) (n := 744047) (t1 := 5500000000) (gap := 68) (m := 1000000)
      (length := 60) (rest := fun _ => 0) (others := []) (by norm_num) (by norm_num) (by norm_num) (by norm_num) (by norm_num) (by simp)
      (by norm_num) hsort (by rw [List.append_nil]; rfl)

end BenchProofs

/-- The traces of `C85_firewall` and `C85_nat` include the usual benchmark. -/
example : Trace 60000 usual ∧ Fed 4000000000 usual ∧ InOrder 4000000000 usual := usual_ok

end Verif.Props
