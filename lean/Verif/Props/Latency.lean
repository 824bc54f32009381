/- The measurement of latencies (C97). -/
import Verif.Bench.Latency
import Verif.Props.Bench

set_option autoImplicit false

namespace Verif.Props.LatencyProofs
open Verif.Bench.Latency

theorem measure_bounds (limit m : Nat) (ps : List Probe) (hm : ∀ p ∈ ps, p.took ≤ m) : ∀ (now : Nat) (r : Measured), now ≤ limit → measureUntil limit now ps = some r →
    limit ≤ r.ended ∧ r.ended ≤ limit + m ∧ ∀ x ∈ r.probes, now ≤ x.1 ∧ x.1 < limit ∧ x.1 ≤ x.2 ∧ x.2 ≤ limit + m ∧ x.2 ≤ r.ended := by
  induction ps with
  | nil =>
    intro now r hn h
    unfold measureUntil at h
    split at h
    · simp at h
    · simp only [Option.some.injEq] at h; subst h; simp; omega
  | cons p ps ih =>
    intro now r hn h
    have hp := hm p (by simp)
    have hps : ∀ p ∈ ps, p.took ≤ m := fun q hq => hm q (by simp [hq])
    unfold measureUntil at h
    split at h
    · rename_i hlt
      split at h
      · simp at h
      · rename_i r1 h1
        simp only [Option.some.injEq] at h
        subst h
        by_cases hle : now + p.took ≤ limit
        · obtain ⟨a, b, c⟩ := ih hps _ _ hle h1
          refine ⟨a, b, ?_⟩
          intro x hx
          rcases List.mem_cons.1 hx with rfl | hx
          · refine ⟨Nat.le_refl _, hlt, by simp, by simp only; omega, ?_⟩
            simp only; omega
          · have := c x hx
            simp only
            omega
        · have : r1 = ⟨[], [], now + p.took⟩ := by
            cases ps <;> (unfold measureUntil at h1; simp only [show ¬ now + p.took < limit by omega, if_false, Option.some.injEq] at h1; exact h1.symm)
          subst this
          simp
          omega
    · simp only [Option.some.injEq] at h; subst h; simp; omega

theorem measure_used (limit : Nat) (ps : List Probe) : ∀ (now : Nat) (r : Measured), measureUntil limit now ps = some r →
    ∃ used rest, ps = used ++ rest ∧ r.probes.length = used.length ∧ r.lats = used.filterMap (·.latency) ∧
      r.ended = now + (used.map (·.took)).sum ∧
      (∀ i, i < used.length → r.probes[i]? = some (now + ((used.take i).map (·.took)).sum, now + ((used.take (i+1)).map (·.took)).sum)) := by
  induction ps with
  | nil =>
    intro now r h
    unfold measureUntil at h
    split at h
    · simp at h
    · simp only [Option.some.injEq] at h; subst h; exact ⟨[], [], by simp⟩
  | cons p ps ih =>
    intro now r h
    unfold measureUntil at h
    split at h
    · split at h
      · simp at h
      · rename_i r1 h1
        simp only [Option.some.injEq] at h
        subst h
        obtain ⟨used, rest, h2, h3, h4, h5, h6⟩ := ih _ _ h1
        refine ⟨p :: used, rest, by simp [h2], by simp [h3], ?_, by simp [h5]; omega, ?_⟩
        · rcases hp : p.latency with _ | l <;> simp [hp, h4]
        · intro i hi
          cases i with
          | zero => simp
          | succ i =>
            simp only [List.length_cons, Nat.add_lt_add_iff_right] at hi
            simp only [List.getElem?_cons_succ, h6 i hi, List.take_succ_cons, List.map_cons, List.sum_cons, Nat.add_assoc]
    · simp only [Option.some.injEq] at h; subst h; exact ⟨[], p :: ps, by simp⟩

theorem loads_bounds (e : Nat) (ls : List Load) (he : ∀ l ∈ ls, l.setup + l.over + l.finish ≤ e) : ∀ (now i : Nat) (w : Nat × Nat), (loads now ls)[i]? = some w →
    w.1 ≤ now + i * (duration + padding * 2) + (i + 1) * e ∧ now + (i + 1) * (duration + padding * 2) ≤ w.2 := by
  induction ls with
  | nil => intro now i w h; simp [loads] at h
  | cons l ls ih =>
    intro now i w h
    have hl := he l (by simp)
    unfold loads at h
    cases i with
    | zero =>
      simp only [List.getElem?_cons_zero, Option.some.injEq] at h
      subst h
      simp only
      omega
    | succ i =>
      simp only [List.getElem?_cons_succ] at h
      have := ih (fun l hl => he l (by simp [hl])) _ i w h
      rw [Nat.add_mul i 1, Nat.one_mul, Nat.add_mul (i+1) 1 e, Nat.one_mul, Nat.add_mul (i+1) 1, Nat.one_mul]
      omega

theorem rounds_bounds (d m : Nat) (rs : List Round) (hb : ∀ r ∈ rs, padding ≤ r.before ∧ padding ≤ r.after) (hm : ∀ r ∈ rs, ∀ p ∈ r.probes, p.took ≤ m)
    (hd : ∀ r ∈ rs, r.before + m + r.output + r.after ≤ padding * 2 + d) : ∀ (now i : Nat) (ms : List Measured) (x : Measured),
    rounds now rs = some ms → ms[i]? = some x → ∀ p ∈ x.probes,
      now + i * (duration + padding * 2) + padding ≤ p.1 ∧ p.1 ≤ p.2 ∧ p.2 ≤ now + i * (duration + padding * 2) + (i + 1) * d + padding + duration := by
  induction rs with
  | nil => intro now i ms x h hx; simp only [rounds, Option.some.injEq] at h; subst h; simp at hx
  | cons r rs ih =>
    intro now i ms x h hx
    unfold rounds at h
    split at h
    · simp at h
    · rename_i r1 next h1
      split at h
      · simp at h
      · rename_i ms1 h2
        simp only [Option.some.injEq] at h
        subst h
        have hr := hb r (by simp)
        have hdr := hd r (by simp)
        unfold Round.run at h1
        split at h1
        · simp at h1
        · rename_i r2 h3
          simp only [Option.some.injEq, Prod.mk.injEq] at h1
          obtain ⟨rfl, rfl⟩ := h1
          obtain ⟨a, b, c⟩ := measure_bounds _ m _ (hm r (by simp)) _ _ (by omega) h3
          cases i with
          | zero =>
            simp only [List.getElem?_cons_zero, Option.some.injEq] at hx
            subst hx
            intro p hp
            have := c p hp
            omega
          | succ i =>
            simp only [List.getElem?_cons_succ] at hx
            intro p hp
            have := ih (fun r hr => hb r (by simp [hr])) (fun r hr => hm r (by simp [hr])) (fun r hr => hd r (by simp [hr])) _ i _ x h2 hx p hp
            rw [Nat.add_mul i 1, Nat.one_mul, Nat.add_mul (i+1) 1 d, Nat.one_mul]
            omega

/-- A packet that comes back, in the millisecond of the limiter. -/
def probe : Probe := ⟨1000, some 5⟩

/-- The measurements of such packets from a time on. -/
def probesFrom (k now : Nat) : List (Nat × Nat) := (List.range k).map fun j => (now + 1000 * j, now + 1000 * j + 1000)

theorem measure_uniform (k : Nat) : ∀ now limit, limit = now + 1000 * k →
    measureUntil limit now (List.replicate k probe) = some ⟨probesFrom k now, List.replicate k 5, limit⟩ := by
  induction k with
  | zero => intro now limit h; simp [measureUntil, probesFrom, h]
  | succ k ih =>
    intro now limit h
    rw [List.replicate_succ, measureUntil, if_pos (by omega), ih (now + probe.took) limit (by simp only [probe]; omega)]
    simp only [probesFrom, List.range_succ_eq_map, List.map_cons, List.map_map, List.replicate_succ, probe, Nat.mul_zero, Nat.add_zero, Option.some.injEq,
      Measured.mk.injEq, List.cons.injEq, true_and, and_true]
    apply List.map_congr_left
    intro j _
    simp only [Function.comp, Prod.mk.injEq]
    omega

/-- A round of `k` packets with the pauses in the script, and the given time for its output. -/
def round (k output : Nat) : Round := ⟨50000, List.replicate k probe, output, 50000⟩

theorem round_run (k output now : Nat) (hk : 1000 * k = 30000000) :
    (round k output).run now = some (⟨probesFrom k (now + 50000), List.replicate k 5, now + 30050000⟩, now + 30100000 + output) := by
  have h := measure_uniform k (now + 50000) (now + 50000 + duration) (by unfold duration; omega)
  have h1 : now + 50000 + duration = now + 30050000 := by unfold duration; omega
  have h2 : now + 30050000 + output + 50000 = now + 30100000 + output := by omega
  unfold Round.run round
  rw [h, h1, ← h2]

theorem rounds_uniform (k output n : Nat) (hk : 1000 * k = 30000000) : ∀ now, rounds now (List.replicate n (round k output)) =
    some ((List.range n).map fun i => ⟨probesFrom k (now + i * (30100000 + output) + 50000), List.replicate k 5, now + i * (30100000 + output) + 30050000⟩) := by
  induction n with
  | zero => intro now; simp only [List.replicate_zero, rounds, List.range_zero, List.map_nil]
  | succ n ih =>
    intro now
    have h0 : now + 0 * (30100000 + output) = now := by rw [Nat.zero_mul, Nat.add_zero]
    have h1 : ∀ i, now + (i + 1) * (30100000 + output) = now + 30100000 + output + i * (30100000 + output) := by intro i; rw [Nat.add_mul]; omega
    rw [List.replicate_succ, rounds, round_run k output now hk, List.range_succ_eq_map, List.map_cons, List.map_map, h0]
    simp only [ih, Function.comp_def, h1]

theorem loads_uniform (n : Nat) : ∀ now, loads now (List.replicate n ⟨0, 0, 0⟩) = (List.range n).map fun i => (now + i * 30100000, now + (i + 1) * 30100000) := by
  induction n with
  | zero => intro now; simp only [List.replicate_zero, loads, List.range_zero, List.map_nil]
  | succ n ih =>
    intro now
    rw [List.replicate_succ, loads]
    have hd : duration + padding * 2 = 30100000 := by unfold duration padding; omega
    rw [hd, ih, List.range_succ_eq_map, List.map_cons, List.map_map]
    refine congrArg₂ _ (by rw [Nat.zero_mul, Nat.zero_add, Nat.one_mul, Nat.add_zero, Nat.add_zero]) (List.map_congr_left ?_)
    intro i _
    simp only [Function.comp, Prod.mk.injEq]
    omega

/-- A run in which everything takes the times in the script but the output. -/
def run (h k output n : Nat) : Run := ⟨0, List.replicate h probe, 5000000, List.replicate n (round k output), List.replicate n ⟨0, 0, 0⟩⟩

theorem run_heated (h k output n : Nat) (hh : 1000 * h = 5000000) : (run h k output n).heated = some 5000000 := by
  simp only [Run.heated, run]
  rw [measure_uniform h 0 _ (by unfold heatupDuration; omega)]
  simp only [heatupDuration, Nat.zero_add]

theorem run_latencies (h k output n : Nat) (hh : 1000 * h = 5000000) (hk : 1000 * k = 30000000) : (run h k output n).latencies =
    some ((List.range n).map fun i => ⟨probesFrom k (5000000 + i * (30100000 + output) + 50000), List.replicate k 5, 5000000 + i * (30100000 + output) + 30050000⟩) := by
  simp only [Run.latencies, run_heated h k output n hh]
  exact rounds_uniform k output n hk _

theorem run_traffic (h k output n : Nat) : (run h k output n).traffic = (List.range n).map fun i => (5000000 + i * 30100000, 5000000 + (i + 1) * 30100000) :=
  loads_uniform n _

theorem run_rounds {h k output n : Nat} {x : Round} (hx : x ∈ (run h k output n).rounds) : x.before = 50000 ∧ x.after = 50000 ∧ x.output = output ∧ ∀ p ∈ x.probes, p.took = 1000 := by
  simp only [run, List.mem_replicate] at hx
  obtain ⟨-, rfl⟩ := hx
  refine ⟨rfl, rfl, rfl, ?_⟩
  intro p hp
  simp only [round, List.mem_replicate] at hp
  rw [hp.2]; rfl

theorem run_loads {h k output n : Nat} {l : Load} (hl : l ∈ (run h k output n).loads) : l.setup = 0 ∧ l.over = 0 ∧ l.finish = 0 := by
  simp only [run, List.mem_replicate] at hl
  obtain ⟨-, rfl⟩ := hl
  exact ⟨rfl, rfl, rfl⟩

end Verif.Props.LatencyProofs

namespace Verif.Props
open Verif.Bench.Latency

/-- **C97** Every measurement, from sending to the end of the wait, happens during the background traffic of the rate under whose name it is
written, if what a round takes beyond the times in the script adds up, over all rounds, to at most the pause before and after each.
What is missing is the claim without this condition, which is false: `C97_drift`. -/
theorem C97_window_partial (r : Run) (n d e m now : Nat) (ms : List Measured) (hr : r.rounds.length = n) (hl : r.loads.length = n)
    (hb : ∀ x ∈ r.rounds, 50000 ≤ x.before ∧ 50000 ≤ x.after) (hm : ∀ x ∈ r.rounds, ∀ p ∈ x.probes, p.took ≤ m)
    (hd : ∀ x ∈ r.rounds, x.before + m + x.output + x.after ≤ 100000 + d) (he : ∀ l ∈ r.loads, l.setup + l.over + l.finish ≤ e)
    (hnow : r.heated = some now) (h1 : r.pause + n * e ≤ now + 50000) (h2 : now + n * d ≤ r.pause + 50000) (hms : r.latencies = some ms) :
    ms.length = n ∧ r.traffic.length = n ∧
    ∀ (i : Nat) (x : Measured) (w : Nat × Nat), ms[i]? = some x → r.traffic[i]? = some w → ∀ p ∈ x.probes, w.1 ≤ p.1 ∧ p.1 ≤ p.2 ∧ p.2 ≤ w.2 := by
  have hlen : ∀ (ls : List Load) (t : Nat), (loads t ls).length = ls.length := by
    intro ls; induction ls with
    | nil => intro t; rfl
    | cons l ls ih => intro t; simp [loads, ih]
  have hlen' : ∀ (rs : List Round) (t : Nat) (ms : List Measured), rounds t rs = some ms → ms.length = rs.length := by
    intro rs; induction rs with
    | nil => intro t ms h; simp only [rounds, Option.some.injEq] at h; subst h; rfl
    | cons r rs ih =>
      intro t ms h
      unfold rounds at h
      split at h
      · simp at h
      · split at h
        · simp at h
        · rename_i h1
          simp only [Option.some.injEq] at h
          subst h
          simp [ih _ _ h1]
  simp only [Run.latencies, hnow] at hms
  have hmsl := hlen' _ _ _ hms
  refine ⟨by rw [hmsl, hr], by rw [Run.traffic, hlen, hl], ?_⟩
  intro i x w hx hw p hp
  have hi : i < n := by have := (List.getElem?_eq_some_iff.1 hx).1; omega
  have a := LatencyProofs.loads_bounds e r.loads he _ i w hw
  have b := LatencyProofs.rounds_bounds d m r.rounds hb hm hd _ i ms x hms hx p hp
  have hie : (i + 1) * e ≤ n * e := Nat.mul_le_mul_right e hi
  have hid : (i + 1) * d ≤ n * d := Nat.mul_le_mul_right d hi
  rw [Nat.add_mul i 1 (duration + _), Nat.one_mul] at a
  simp only [padding] at *
  omega

/-- **C97** There are at most 21 rates for every throughput that the benchmark can find, so that 2 milliseconds for each round are not too much
if the two tasks start the first round within 8 milliseconds of each other. -/
theorem C97_rates {best : ℚ} (h0 : 0 ≤ best) (h1 : best ≤ 10000) :
    (Verif.Bench.latencyRates best).length ≤ 21 ∧ ∀ n d start start' : Nat, n ≤ (Verif.Bench.latencyRates best).length → d ≤ 2000 → start ≤ start' + 8000 →
      start + n * d ≤ start' + 50000 := by
  have hl : (Verif.Bench.latencyRates best).length ≤ 21 := by
    rw [BenchProofs.latencyRates_eq h0]
    have hf : (⌊best / 500⌋₊ : ℚ) ≤ best / 500 := Nat.floor_le (by positivity)
    have hf' : (⌊best / 500⌋₊ : ℚ) ≤ 20 := by linarith
    have hf2 : ⌊best / 500⌋₊ ≤ 20 := by exact_mod_cast hf'
    split
    · rename_i hc
      have : (⌊best / 500⌋₊ : ℚ) < 20 := by linarith
      have : ⌊best / 500⌋₊ < 20 := by exact_mod_cast this
      simp
      omega
    · simp
      omega
  refine ⟨hl, ?_⟩
  intro n d start start' hn hd hs
  have : n * d ≤ 21 * 2000 := Nat.mul_le_mul (by omega) hd
  omega

/-- **C97** What a round writes is the latencies of the packets that came back, one on a line and in the order in which they were sent; the
measurements of a round are one after the other and begin with the end of the pause. -/
theorem C97_files (now : Nat) (r : Round) (m : Measured) (next : Nat) (h : r.run now = some (m, next)) :
    ∃ used rest, r.probes = used ++ rest ∧ m.probes.length = used.length ∧ dump m.lats = (used.filterMap (·.latency)).map toString ∧
      (∀ i, i < used.length → m.probes[i]? = some (now + r.before + ((used.take i).map (·.took)).sum, now + r.before + ((used.take (i + 1)).map (·.took)).sum)) ∧
      next = now + r.before + (used.map (·.took)).sum + r.output + r.after ∧ 30000000 ≤ (used.map (·.took)).sum ∧
      (∀ i, i < used.length → ((used.take i).map (·.took)).sum < 30000000) := by
  unfold Round.run at h
  split at h
  · simp at h
  · rename_i m1 h1
    simp only [Option.some.injEq, Prod.mk.injEq] at h
    obtain ⟨rfl, rfl⟩ := h
    obtain ⟨used, rest, a, b, c, d, e⟩ := LatencyProofs.measure_used _ _ _ _ h1
    obtain ⟨f, -, g⟩ := LatencyProofs.measure_bounds _ _ _ (fun p hp => List.single_le_sum (by simp) p.took (List.mem_map.2 ⟨p, hp, rfl⟩)) _ _ (by simp) h1
    refine ⟨used, rest, a, b, by rw [dump, c], e, by rw [d], ?_, ?_⟩
    · rw [d] at f; simp only [duration] at f; omega
    · intro i hi
      have := (g _ (List.mem_of_getElem? (e i hi))).2.1
      simp only [duration] at this
      omega

/-- **C97** At most 30000 packets are measured in a round, as each takes at least the millisecond of the limiter. -/
theorem C97_count (now : Nat) (r : Round) (m : Measured) (next : Nat) (h : r.run now = some (m, next)) (hm : ∀ p ∈ r.probes, 1000 ≤ p.took) :
    m.probes.length ≤ 30000 ∧ m.lats.length ≤ m.probes.length := by
  obtain ⟨used, rest, a, b, c, -, -, -, g⟩ := C97_files now r m next h
  have hs : ∀ l : List Probe, (∀ p ∈ l, 1000 ≤ p.took) → 1000 * l.length ≤ (l.map (·.took)).sum := by
    intro l; induction l with
    | nil => simp
    | cons p l ih =>
      intro hl
      have h1 := hl p (by simp)
      have h2 := ih (fun q hq => hl q (by simp [hq]))
      simp only [List.length_cons, List.map_cons, List.sum_cons]
      omega
  constructor
  · rw [b]
    by_contra hc
    have h1 := g 30000 (by omega)
    have h2 := hs (used.take 30000) (fun p hp => hm p (by rw [a]; exact List.mem_append_left _ (List.mem_of_mem_take hp)))
    rw [List.length_take] at h2
    omega
  · have : m.lats.length = (used.filterMap (·.latency)).length := by
      have := congrArg List.length c
      simpa [dump] using this
    rw [this, b]
    exact List.length_filterMap_le ..

/-- **C97** If writing the summary of a round takes 3 milliseconds and all else takes the times in the script, then of the 19th round on packets are measured
under the traffic of the next rate. -/
theorem C97_drift : ∃ (r : Run) (ms : List Measured), r.rounds.length = 21 ∧ r.loads.length = 21 ∧ r.heated = some r.pause ∧
    (∀ x ∈ r.rounds, x.before = 50000 ∧ x.after = 50000 ∧ x.output = 3000 ∧ ∀ p ∈ x.probes, p.took = 1000) ∧
    (∀ l ∈ r.loads, l.setup = 0 ∧ l.over = 0 ∧ l.finish = 0) ∧ r.latencies = some ms ∧
    ∀ i, 18 ≤ i → i < 20 → ∃ x w w' p, ms[i]? = some x ∧ r.traffic[i]? = some w ∧ r.traffic[i + 1]? = some w' ∧ p ∈ x.probes ∧ w.2 < p.1 ∧ w'.1 ≤ p.1 ∧ p.2 ≤ w'.2 := by
  obtain ⟨h, hh⟩ : ∃ h, 1000 * h = 5000000 := ⟨5000, by norm_num⟩
  obtain ⟨k, hk⟩ : ∃ k, 1000 * k = 30000000 := ⟨30000, by norm_num⟩
  refine ⟨LatencyProofs.run h k 3000 21, _, List.length_replicate, List.length_replicate, LatencyProofs.run_heated h k 3000 21 hh,
    fun x hx => LatencyProofs.run_rounds hx, fun l hl => LatencyProofs.run_loads hl, LatencyProofs.run_latencies h k 3000 21 hh hk, ?_⟩
  intro i h1 h2
  refine ⟨_, _, _, (5000000 + i * 30103000 + 50000 + 1000 * (k - 1), 5000000 + i * 30103000 + 50000 + 1000 * (k - 1) + 1000), by
    rw [List.getElem?_map, List.getElem?_range (by omega)]; rfl, by
    rw [LatencyProofs.run_traffic, List.getElem?_map, List.getElem?_range (by omega)]; rfl, by
    rw [LatencyProofs.run_traffic, List.getElem?_map, List.getElem?_range (by omega)]; rfl, ?_, ?_, ?_, ?_⟩
  · simp only [LatencyProofs.probesFrom, List.mem_map, List.mem_range]
    exact ⟨k - 1, by omega, rfl⟩
  all_goals simp only; omega

/-- A run of 21 rounds with an output of one millisecond meets the conditions of `C97_window_partial`. -/
example : ∃ (r : Run) (ms : List Measured) (now : Nat), r.rounds.length = 21 ∧ r.loads.length = 21 ∧ (∀ x ∈ r.rounds, 50000 ≤ x.before ∧ 50000 ≤ x.after) ∧
    (∀ x ∈ r.rounds, ∀ p ∈ x.probes, p.took ≤ 1000) ∧ (∀ x ∈ r.rounds, x.before + 1000 + x.output + x.after ≤ 100000 + 2000) ∧
    (∀ l ∈ r.loads, l.setup + l.over + l.finish ≤ 2000) ∧ r.heated = some now ∧ r.pause + 21 * 2000 ≤ now + 50000 ∧ now + 21 * 2000 ≤ r.pause + 50000 ∧
    r.latencies = some ms ∧ ∃ x ∈ ms, x.probes ≠ [] := by
  obtain ⟨h, hh⟩ : ∃ h, 1000 * h = 5000000 := ⟨5000, by norm_num⟩
  obtain ⟨k, hk⟩ : ∃ k, 1000 * k = 30000000 := ⟨30000, by norm_num⟩
  refine ⟨LatencyProofs.run h k 1000 21, _, _, List.length_replicate, List.length_replicate, ?_, ?_, ?_, ?_, LatencyProofs.run_heated h k 1000 21 hh,
    by simp only [LatencyProofs.run]; omega, by simp only [LatencyProofs.run]; omega, LatencyProofs.run_latencies h k 1000 21 hh hk, ?_⟩
  · intro x hx; have := LatencyProofs.run_rounds hx; omega
  · intro x hx p hp; have := (LatencyProofs.run_rounds hx).2.2.2 p hp; omega
  · intro x hx; have := LatencyProofs.run_rounds hx; omega
  · intro l hl; have := LatencyProofs.run_loads hl; omega
  · refine ⟨_, List.mem_map.2 ⟨0, by simp, rfl⟩, ?_⟩
    simp only [LatencyProofs.probesFrom, ne_eq, List.map_eq_nil_iff, List.range_eq_nil]
    omega

/-- A round in which a packet is lost. -/
example : (Round.mk 50000 [⟨10000000, some 7⟩, ⟨10000000, none⟩, ⟨11000000, some 9⟩] 100 50000).run 0 =
    some (⟨[(50000, 10050000), (10050000, 20050000), (20050000, 31050000)], [7, 9], 31050000⟩, 31100100) := by
  simp [Round.run, measureUntil, duration]

/-- A throughput of 10 Gb/s has 21 rates. -/
example : ∃ best : ℚ, 0 ≤ best ∧ best ≤ 10000 ∧ (Verif.Bench.latencyRates best).length = 21 := by
  refine ⟨10000, by norm_num, by norm_num, ?_⟩
  rw [BenchProofs.latencyRates_eq (by norm_num)]
  norm_num

end Verif.Props
