/- Property C45: the policer enforces the configured rate and burst. -/
import Verif.Nf.Policer
import Verif.Nf.PacketProofs
import Verif.Nf.TableProofs
import Verif.Props.Firewall

set_option autoImplicit false

namespace Verif.Props
open Verif.Nf (Packet Table Out)
open Verif.Nf.Policer (Config State Bucket)
open Verif.PacketSpec (isIpv4 dword)
open Verif.IndexPoolSpec (timeMax)

/-- Bytes forwarded from the WAN to address `a`, given inputs and outputs. -/
def policedBytes (wan a : Nat) : List Packet → List (List Out) → Nat
  | p :: ps, o :: os =>
    (if p.device = wan ∧ isIpv4 p ∧ dword p 30 = a ∧ o.length ≠ 0 then p.length else 0) + policedBytes wan a ps os
  | _, _ => 0

/-- The claim for one configuration: in any run from the initial state, over any
window of consecutive packets whose times span `T`, the bytes forwarded from the WAN to
one address are at most `burst + rate * T`. -/
def RateClaim (c : Config) (size : Nat) : Prop :=
  ∀ (before window : List Packet) (s0 s1 s2 : State) (outs1 outs2 : List (List Out)) (a t0 T : Nat),
    MonoFrom 0 (before ++ window) → (∀ p ∈ before ++ window, p.time < timeMax ∧ p.device < 2) →
    (∀ p ∈ window, t0 ≤ p.time ∧ p.time ≤ t0 + T) →
    Nf.Policer.init c size = some s0 → Nf.Policer.run c s0 before = some (s1, outs1) →
    Nf.Policer.run c s1 window = some (s2, outs2) →
    policedBytes c.wanDevice a window outs2 ≤ c.burst + c.rate * T

/-- Invariant: `k = burst / rate`. -/
structure PolInv (c : Config) (size exp : Nat) (now : Nat) (s : State) : Prop where
  inv : Nf.Inv size exp s.table
  blen : s.buckets.length = size
  bound : ∀ b ∈ s.buckets, b.size ≤ c.burst
  times : ∀ a i t, Nf.look s.table a = some (i, t) → t ≤ now ∧ ∃ b, s.buckets[i]? = some b ∧ b.time = t

/-- Scaled credit of address `a` at time `t`: `k` times the tokens it would have with a
rate of `burst / k`. -/
def credit (c : Config) (s : State) (a t : Nat) : Nat :=
  match Nf.look s.table a with
  | none => c.burst / c.rate * c.burst
  | some (i, _) =>
    match s.buckets[i]? with
    | none => c.burst / c.rate * c.burst
    | some b => min (c.burst / c.rate * c.burst) (c.burst / c.rate * b.size + (t - b.time) * c.burst)

theorem credit_le (c : Config) (s : State) (a t : Nat) : credit c s a t ≤ c.burst / c.rate * c.burst := by
  unfold credit; split
  · exact le_rfl
  · split
    · exact le_rfl
    · exact min_le_left _ _

theorem credit_later (c : Config) (s : State) (a t t' : Nat) (h : t ≤ t') :
    credit c s a t' ≤ credit c s a t + (t' - t) * c.burst := by
  unfold credit; split
  · omega
  · split
    · omega
    · rename_i b _
      have : (t' - b.time) * c.burst ≤ (t - b.time) * c.burst + (t' - t) * c.burst := by
        rw [← Nat.add_mul]; exact Nat.mul_le_mul_right _ (by omega)
      rcases Nat.le_total (c.burst / c.rate * c.burst) (c.burst / c.rate * b.size + (t - b.time) * c.burst) with h1 | h1
      · rw [min_eq_left h1]
        exact le_trans (min_le_left _ _) (by omega)
      · rw [min_eq_right h1]
        exact le_trans (min_le_right _ _) (by omega)

theorem refill_le (c : Config) (b : Bucket) (t : Nat) : Nf.Policer.refill c b t ≤ c.burst := by
  unfold Nf.Policer.refill; dsimp only; split
  · split <;> omega
  · omega

/-- The refill never gives more than the scaled credit. -/
theorem refill_credit (c : Config) (b : Bucket) (t : Nat) (hb : b.time ≤ t) (ht : t < timeMax) :
    c.burst / c.rate * Nf.Policer.refill c b t ≤
      min (c.burst / c.rate * c.burst) (c.burst / c.rate * b.size + (t - b.time) * c.burst) := by
  have htm : timeMax = 2 ^ 64 - 1 := rfl
  have hd : (2 ^ 64 + t - b.time) % 2 ^ 64 = t - b.time := by omega
  set k := c.burst / c.rate with hk
  have hkr : k * c.rate ≤ c.burst := Nat.div_mul_le_self _ _
  refine le_min (Nat.mul_le_mul_left _ (refill_le c b t)) ?_
  unfold Nf.Policer.refill
  rw [hd]
  dsimp only
  split
  · have h1 : (b.size + (t - b.time) * c.rate % 2 ^ 64) % 2 ^ 64 ≤ b.size + (t - b.time) * c.rate :=
      le_trans (Nat.mod_le _ _) (Nat.add_le_add_left (Nat.mod_le _ _) _)
    have h2 : k * (b.size + (t - b.time) * c.rate) ≤ k * b.size + (t - b.time) * c.burst := by
      rw [Nat.mul_add]
      have : k * ((t - b.time) * c.rate) = (t - b.time) * (k * c.rate) := by ring
      rw [this]
      exact Nat.add_le_add_left (Nat.mul_le_mul_left _ hkr) _
    split
    · rename_i hgt
      exact le_trans (Nat.mul_le_mul_left k (le_of_lt (lt_of_lt_of_le hgt h1))) h2
    · exact le_trans (Nat.mul_le_mul_left k h1) h2
  · rename_i hge
    have : k * c.burst ≤ (t - b.time) * c.burst := Nat.mul_le_mul_right _ (by omega)
    omega

/-- One packet from the WAN: it keeps the invariant, and the bytes forwarded are taken
from the credit. -/
theorem police_step {c : Config} {size exp now : Nat} {s : State} (inv : PolInv c size exp now s)
    {t len addr : Nat} (hn : now ≤ t) (ht : t < timeMax) :
    ∃ s' ok, Nf.Policer.police c s t len addr = some (s', ok) ∧ PolInv c size exp t s' ∧
      (c.burst / c.rate ≤ exp →
        ∀ a, c.burst / c.rate * (if addr = a ∧ ok = true then len else 0) + credit c s' a t ≤ credit c s a t) := by
  unfold Nf.Policer.police
  cases hg : s.table.map.get addr with
  | some i =>
    obtain ⟨t0, _, hl⟩ := Nf.look_of_get inv.inv hg
    obtain ⟨tb', h1, h2, h3, h4, h5⟩ := Nf.refresh_spec inv.inv hl ht
    obtain ⟨ht0, b, hb, hbt⟩ := inv.times addr i t0 hl
    have hil := (Nf.look_key inv.inv hl).2
    have hib : i < s.buckets.length := by rw [inv.blen]; exact hil
    have hrc := refill_credit c b t (by omega) ht
    have hrl := refill_le c b t
    have hcr : credit c s addr t =
        min (c.burst / c.rate * c.burst) (c.burst / c.rate * b.size + (t - b.time) * c.burst) := by
      simp only [credit, hl, hb]
    -- the common part of both outcomes: bucket `i` becomes `⟨sz, t⟩`
    have key : ∀ (sz got : Nat), sz ≤ c.burst → got + sz ≤ Nf.Policer.refill c b t →
        PolInv c size exp t ⟨tb', s.buckets.set i ⟨sz, t⟩⟩ ∧
        ∀ a, c.burst / c.rate * (if addr = a then got else 0) + credit c ⟨tb', s.buckets.set i ⟨sz, t⟩⟩ a t ≤ credit c s a t := by
      intro sz got hsz hgot
      refine ⟨⟨h2, by simpa using inv.blen, ?_, ?_⟩, ?_⟩
      · intro b' hb'
        rcases List.mem_or_eq_of_mem_set hb' with h | rfl
        · exact inv.bound b' h
        · exact hsz
      · intro a j t' ha
        simp only at ha
        rw [h5] at ha
        by_cases he : a = addr
        · rw [if_pos he] at ha; cases ha
          exact ⟨le_rfl, _, List.getElem?_set_self hib, rfl⟩
        · rw [if_neg he] at ha
          obtain ⟨h6, b', h7, h8⟩ := inv.times a j t' ha
          have hne : i ≠ j := by rintro rfl; exact he (Nf.look_inj inv.inv ha hl)
          exact ⟨by omega, b', by simpa [List.getElem?_set, hne] using h7, h8⟩
      · intro a
        by_cases he : addr = a
        · subst he
          rw [if_pos rfl]
          have : credit c ⟨tb', s.buckets.set i ⟨sz, t⟩⟩ addr t ≤ c.burst / c.rate * sz := by
            simp only [credit, h5, ↓reduceIte, List.getElem?_set_self hib]
            refine le_trans (min_le_right _ _) ?_
            simp
          rw [hcr]
          refine le_trans ?_ hrc
          have hmul := Nat.mul_le_mul_left (c.burst / c.rate) hgot
          rw [Nat.mul_add] at hmul
          omega
        · rw [if_neg he, Nat.mul_zero, Nat.zero_add]
          have he' : a ≠ addr := Ne.symm he
          simp only [credit, h5, he', ↓reduceIte]
          cases hla : Nf.look s.table a with
          | none => exact le_rfl
          | some x =>
            obtain ⟨j, t'⟩ := x
            have hne : i ≠ j := by rintro rfl; exact he' (Nf.look_inj inv.inv hla hl)
            simp only [List.getElem?_set, hne, ↓reduceIte]
            exact le_rfl
    simp only [Nf.Policer.known, h1, hb, Option.bind_eq_bind, Option.bind_some]
    split
    · rename_i hgt
      have := key (Nf.Policer.refill c b t - len) len (by omega) (by omega)
      exact ⟨_, true, rfl, this.1, fun _ a => by simpa using this.2 a⟩
    · have := key (Nf.Policer.refill c b t) 0 hrl (by omega)
      exact ⟨_, false, rfl, this.1, fun _ a => by simpa using this.2 a⟩
  | none =>
    have hl : Nf.look s.table addr = none := Nf.look_none_of_get hg
    simp only [Nf.Policer.unknown]
    by_cases hlen : len > c.burst
    · rw [if_pos hlen]
      exact ⟨s, false, rfl, ⟨inv.inv, inv.blen, inv.bound,
        fun a i t' h => ⟨by have := (inv.times a i t' h).1; omega, (inv.times a i t' h).2⟩⟩, fun _ a => by simp⟩
    rw [if_neg hlen]
    obtain ⟨tb', r, h1, h2, h3⟩ := Nf.insert_spec inv.inv hl ht
    rcases h3 with ⟨rfl, h4, h5⟩ | ⟨i, rfl, hi, h4, h5, h6⟩
    · simp only [h1, Option.bind_eq_bind, Option.bind_some]
      refine ⟨_, false, rfl, ⟨h2, inv.blen, inv.bound, ?_⟩, ?_⟩
      · intro a i t' h
        simp only at h
        rw [h4] at h
        exact ⟨by have := (inv.times a i t' h).1; omega, (inv.times a i t' h).2⟩
      · intro _ a; simp [credit, h4]
    · have hib : i < s.buckets.length := by rw [inv.blen]; exact hi
      simp only [h1, Option.bind_eq_bind, Option.bind_some, if_pos hib]
      refine ⟨_, true, rfl, ⟨h2, by simpa using inv.blen, ?_, ?_⟩, ?_⟩
      · intro b' hb'
        rcases List.mem_or_eq_of_mem_set hb' with h | rfl
        · exact inv.bound b' h
        · simp only; omega
      · intro a j t' ha
        simp only at ha
        by_cases he : a = addr
        · subst he
          rw [h5] at ha; cases ha
          exact ⟨le_rfl, _, List.getElem?_set_self hib, rfl⟩
        · rw [h6 a he] at ha
          obtain ⟨ha1, ha2⟩ := Option.filter_eq_some_iff.1 ha
          have hne : j ≠ i := of_decide_eq_true ha2
          obtain ⟨h7, b', h8, h9⟩ := inv.times a j t' ha1
          exact ⟨by omega, b', by simpa [List.getElem?_set, Ne.symm hne] using h8, h9⟩
      · intro hexp a
        by_cases he : addr = a
        · subst he
          have hc0 : credit c s addr t = c.burst / c.rate * c.burst := by simp [credit, hl]
          have hc1 : credit c ⟨tb', s.buckets.set i ⟨c.burst - len, t⟩⟩ addr t ≤ c.burst / c.rate * (c.burst - len) := by
            simp only [credit, h5, List.getElem?_set_self hib]
            refine le_trans (min_le_right _ _) ?_
            simp
          rw [hc0]
          simp only [and_self, ↓reduceIte]
          have : c.burst / c.rate * len + c.burst / c.rate * (c.burst - len) = c.burst / c.rate * c.burst := by
            rw [← Nat.mul_add]; congr 1; omega
          omega
        · have he' : a ≠ addr := Ne.symm he
          simp only [he, false_and, ↓reduceIte, Nat.mul_zero, Nat.zero_add]
          simp only [credit, h6 a he']
          cases hla : Nf.look s.table a with
          | none => simp
          | some x =>
            obtain ⟨j, t'⟩ := x
            by_cases hj : j = i
            · -- evicted: its credit is back at the maximum
              subst hj
              obtain ⟨h7, b', h8, h9⟩ := inv.times a j t' hla
              have hy := h4 a t' hla
              simp only [IndexPoolSpec.young, Bool.or_eq_false_iff, decide_eq_false_iff_not] at hy
              have hk : c.burst / c.rate ≤ t - b'.time := by omega
              have hm : c.burst / c.rate * c.burst ≤ (t - b'.time) * c.burst := Nat.mul_le_mul_right _ hk
              simp only [Option.filter, ne_eq, not_true_eq_false, decide_false, Bool.false_eq_true, ↓reduceIte, h8]
              rw [min_eq_left (by omega)]
            · simp only [Option.filter, ne_eq, hj, not_false_eq_true, decide_true, ↓reduceIte, List.getElem?_set,
                Ne.symm hj]
              exact le_rfl

/-- One packet. -/
theorem policer_handle {c : Config} {size exp now : Nat} {s : State} (inv : PolInv c size exp now s)
    {p : Packet} (hn : now ≤ p.time) (ht : p.time < timeMax) (hd : p.device < 2) :
    ∃ s' o, Nf.Policer.handle c s p = some (s', o) ∧ PolInv c size exp p.time s' ∧
      (o = [] ∨ o = [Out.transmit p (1 - p.device) false]) ∧
      (¬ isIpv4 p → o = []) ∧ (isIpv4 p → p.device ≠ c.wanDevice → o ≠ []) ∧
      (c.burst / c.rate ≤ exp → ∀ a, c.burst / c.rate * (if p.device = c.wanDevice ∧ isIpv4 p ∧ dword p 30 = a ∧ o.length ≠ 0 then p.length else 0) +
        credit c s' a p.time ≤ credit c s a p.time) := by
  have hinv : PolInv c size exp p.time s := ⟨inv.inv, inv.blen, inv.bound,
    fun a i t' h => ⟨by have := (inv.times a i t' h).1; omega, (inv.times a i t' h).2⟩⟩
  simp only [Nf.Policer.handle, Nf.getIpv4Header_eq]
  by_cases hip : isIpv4 p
  swap
  · simp only [hip, ↓reduceIte]
    exact ⟨s, [], rfl, hinv, .inl rfl, fun _ => rfl, fun h => absurd h (by simp), fun _ a => by simp⟩
  simp only [hip, ↓reduceIte]
  by_cases hw : p.device = c.wanDevice
  · obtain ⟨s', ok, h1, h2, h3⟩ := police_step inv (len := p.length) (addr := dword p 30) hn ht
    simp only [if_pos hw, Nf.ld32_dword, show 14 + 16 = 30 from rfl, h1, Option.bind_eq_bind, Option.bind_some, other_device hd]
    cases ok with
    | true =>
      refine ⟨s', _, rfl, h2, .inr rfl, fun h => absurd trivial h, fun _ h => absurd hw h, fun he a => ?_⟩
      simpa [hw] using h3 he a
    | false =>
      refine ⟨s', _, rfl, h2, .inl rfl, fun _ => rfl, fun _ h => absurd hw h, fun he a => ?_⟩
      simpa using h3 he a
  · simp only [if_neg hw, other_device hd]
    exact ⟨s, _, rfl, hinv, .inr rfl, fun h => absurd trivial h, fun _ _ => by simp, fun _ a => by simp [hw]⟩

theorem policer_run {c : Config} {size exp : Nat} (hexp : c.burst / c.rate ≤ exp) (a : Nat) :
    ∀ (ps : List Packet) {now : Nat} {s : State}, PolInv c size exp now s → MonoFrom now ps →
      (∀ p ∈ ps, p.time < timeMax ∧ p.device < 2) →
      ∃ s' outs now', Nf.Policer.run c s ps = some (s', outs) ∧ PolInv c size exp now' s' ∧ now ≤ now' ∧
        (∀ t, now ≤ t → (∀ p ∈ ps, p.time ≤ t) → now' ≤ t) ∧ (∀ qs, MonoFrom now (ps ++ qs) → MonoFrom now' qs) ∧
        c.burst / c.rate * policedBytes c.wanDevice a ps outs + credit c s' a now' ≤
          credit c s a now + (now' - now) * c.burst := by
  intro ps
  induction ps with
  | nil =>
    intro now s inv _ _
    exact ⟨s, [], now, rfl, inv, le_rfl, fun t h _ => h, fun qs h => h, by simp [policedBytes]⟩
  | cons p ps ih =>
    intro now s inv hm hp
    obtain ⟨s1, o, h1, h2, _, _, _, h3⟩ := policer_handle inv hm.1 (hp p (by simp)).1 (hp p (by simp)).2
    obtain ⟨s2, os, now', h4, h5, h6, h7, h8, h9⟩ := ih h2 hm.2 (fun q hq => hp q (by simp [hq]))
    refine ⟨s2, o :: os, now', by simp [Nf.Policer.run, h1, h4], h5, le_trans hm.1 h6, ?_, fun qs h => h8 qs h.2, ?_⟩
    · intro t _ ht
      exact h7 t (ht p (by simp)) (fun q hq => ht q (by simp [hq]))
    · have ha := h3 hexp a
      have hl := credit_later c s a now p.time hm.1
      simp only [policedBytes, Nat.mul_add]
      have hsplit : (now' - now) * c.burst = (p.time - now) * c.burst + (now' - p.time) * c.burst := by
        rw [← Nat.add_mul]; congr 1; have := hm.1; omega
      omega

theorem policer_init {c : Config} {size : Nat} {s : State} (h : Nf.Policer.init c size = some s) :
    PolInv c size (1000000000 * c.burst % 2 ^ 64 / c.rate) 0 s ∧ 0 < c.rate ∧ 0 < c.burst := by
  unfold Nf.Policer.init at h
  split at h
  · cases h
  rename_i hz
  obtain ⟨tb, h1, h2, h3⟩ := Nf.inv_alloc 0 size (1000000000 * c.burst % 2 ^ 64 / c.rate)
  simp only [h1, Option.bind_eq_bind, Option.bind_some, Option.some.injEq] at h
  subst h
  refine ⟨⟨h2, by simp, ?_, ?_⟩, by omega, by omega⟩
  · intro b hb; rw [List.eq_of_mem_replicate hb]; simp
  · intro a i t ha; simp only at ha; rw [h3] at ha; cases ha

theorem monoFrom_le {now : Nat} : ∀ {ps : List Packet}, MonoFrom now ps → ∀ t, t ≤ now → MonoFrom t ps := by
  intro ps; cases ps with
  | nil => intro _ _ _; trivial
  | cons p ps => intro h t ht; exact ⟨le_trans ht h.1, h.2⟩

/-- C45 for every configuration whose burst lasts at least one time unit and whose
expiration time, as computed by the code with 64-bit wrap-around, is not shorter than
the time to fill a bucket: in a window of length `T` at most
`burst + T * burst / (burst / rate)` bytes are forwarded (stated without division), where
`burst / rate` is the integer quotient the code uses. This is `burst + rate * T` when
`rate` divides `burst` (`C45_rate_divides_burst_partial`). Missing: the bound
`burst + rate * T` for other rates, which is false
(`C45_rate_claim_false_rounding`, `C45_rate_claim_false_large_rate`). -/
theorem C45_rate_bound_partial (c : Config) (size : Nat)
    (hexp : c.burst / c.rate ≤ 1000000000 * c.burst % 2 ^ 64 / c.rate)
    (before window : List Packet) (s0 s1 s2 : State) (outs1 outs2 : List (List Out)) (a t0 T : Nat)
    (hm : MonoFrom 0 (before ++ window)) (hp : ∀ p ∈ before ++ window, p.time < timeMax ∧ p.device < 2)
    (hT : ∀ p ∈ window, t0 ≤ p.time ∧ p.time ≤ t0 + T)
    (hi : Nf.Policer.init c size = some s0) (h1 : Nf.Policer.run c s0 before = some (s1, outs1))
    (h2 : Nf.Policer.run c s1 window = some (s2, outs2)) :
    c.burst / c.rate * policedBytes c.wanDevice a window outs2 ≤ c.burst / c.rate * c.burst + T * c.burst := by
  obtain ⟨inv0, hr, hb⟩ := policer_init hi
  have hmb : MonoFrom 0 before := by
    have : ∀ (l l' : List Packet) (n : Nat), MonoFrom n (l ++ l') → MonoFrom n l := by
      intro l; induction l with
      | nil => intro _ _ _; trivial
      | cons x l ih => intro l' n h; exact ⟨h.1, ih _ _ h.2⟩
    exact this _ _ _ hm
  obtain ⟨s1', o1, now1, e1, inv1, _, _, hmw, _⟩ :=
    policer_run hexp a before inv0 hmb (fun p h => hp p (by simp [h]))
  rw [h1] at e1; cases e1
  have hmw := hmw window hm
  cases window with
  | nil => simp only [Nf.Policer.run] at h2; cases h2; simp [policedBytes]
  | cons p ps =>
    have inv1 : PolInv c size _ p.time s1 := ⟨inv1.inv, inv1.blen, inv1.bound,
      fun a i t' h => ⟨by have := (inv1.times a i t' h).1; have := hmw.1; omega, (inv1.times a i t' h).2⟩⟩
    have hmw' : MonoFrom p.time (p :: ps) := ⟨le_rfl, hmw.2⟩
    obtain ⟨s2', o2, now2, e2, _, hle, hub, _, hbound⟩ :=
      policer_run hexp a (p :: ps) inv1 hmw' (fun q h => hp q (by simp at h ⊢; tauto))
    rw [h2] at e2; cases e2
    have hnow2 : now2 ≤ t0 + T := hub _ (hT p (by simp)).2 (fun q hq => (hT q hq).2)
    have ht0 : t0 ≤ p.time := (hT p (by simp)).1
    have hc := credit_le c s1 a p.time
    have : (now2 - p.time) * c.burst ≤ T * c.burst := Nat.mul_le_mul_right _ (by omega)
    omega

/-- C45 when the rate divides the burst and the expiration time does not wrap. -/
theorem C45_rate_divides_burst_partial (c : Config) (size : Nat) (hdvd : c.rate ∣ c.burst)
    (hexp : 1000000000 * c.burst < 2 ^ 64) : RateClaim c size := by
  intro before window s0 s1 s2 outs1 outs2 a t0 T hm hp hT hi h1 h2
  obtain ⟨_, hr, hb⟩ := policer_init hi
  have hx : c.burst / c.rate ≤ 1000000000 * c.burst % 2 ^ 64 / c.rate := by
    rw [Nat.mod_eq_of_lt hexp]; exact Nat.div_le_div_right (by omega)
  have := C45_rate_bound_partial c size hx before window s0 s1 s2 outs1 outs2 a t0 T hm hp hT hi h1 h2
  obtain ⟨k, hk⟩ := hdvd
  have hkk : c.burst / c.rate = k := by rw [hk]; exact Nat.mul_div_cancel_left _ hr
  have hk0 : 0 < k := by rcases Nat.eq_zero_or_pos k with rfl | h; · omega
                         · exact h
  rw [hkk] at this
  have e : k * c.burst + T * c.burst = k * (c.burst + c.rate * T) := by rw [hk]; ring
  rw [e] at this
  exact Nat.le_of_mul_le_mul_left this hk0

/-- A bucket never holds more than the burst, the policer never breaks a contract of the
data structures, drops what is not IPv4, and always forwards IPv4 packets that do not
come from the WAN, unmodified and to the other device. Holds for all rates and bursts. -/
theorem C45_buckets_and_forwarding (c : Config) (size : Nat) (ps : List Packet) (s0 : State)
    (hi : Nf.Policer.init c size = some s0) (hm : MonoFrom 0 ps) (hp : ∀ p ∈ ps, p.time < timeMax ∧ p.device < 2) :
    ∃ s outs, Nf.Policer.run c s0 ps = some (s, outs) ∧ (∀ b ∈ s.buckets, b.size ≤ c.burst) ∧
      List.Forall₂ (fun p o => (o = [] ∨ o = [Out.transmit p (1 - p.device) false]) ∧ (¬ isIpv4 p → o = []) ∧
        (isIpv4 p → p.device ≠ c.wanDevice → o ≠ [])) ps outs := by
  obtain ⟨inv0, _⟩ := policer_init hi
  have key : ∀ (ps : List Packet) (now : Nat) (s : State), PolInv c size (1000000000 * c.burst % 2 ^ 64 / c.rate) now s →
      MonoFrom now ps → (∀ p ∈ ps, p.time < timeMax ∧ p.device < 2) →
      ∃ s' outs, Nf.Policer.run c s ps = some (s', outs) ∧ (∀ b ∈ s'.buckets, b.size ≤ c.burst) ∧
      List.Forall₂ (fun p o => (o = [] ∨ o = [Out.transmit p (1 - p.device) false]) ∧ (¬ isIpv4 p → o = []) ∧
        (isIpv4 p → p.device ≠ c.wanDevice → o ≠ [])) ps outs := by
    intro ps
    induction ps with
    | nil => intro now s inv _ _; exact ⟨s, [], rfl, inv.bound, .nil⟩
    | cons p ps ih =>
      intro now s inv hm hp
      obtain ⟨s1, o, h1, h2, h3, h4, h5, _⟩ := policer_handle inv hm.1 (hp p (by simp)).1 (hp p (by simp)).2
      obtain ⟨s2, os, h6, h7, h8⟩ := ih p.time s1 h2 hm.2 (fun q hq => hp q (by simp [hq]))
      exact ⟨s2, o :: os, by simp [Nf.Policer.run, h1, h6], h7, .cons ⟨h3, h4, h5⟩ h8⟩
  exact key ps 0 s0 inv0 hm hp

/-- A UDP packet from the WAN (device 1) to address `dst`. -/
def wanPacket (dst length time : Nat) : Packet where
  data := fun i => if i = 12 then 8 else if i = 30 then UInt8.ofNat dst else 0
  length := length
  time := time
  device := 1

/-- Total bytes a policer forwards to address 1 in a run. -/
def policedTotal (c : Config) (size : Nat) (ps : List Packet) : Option Nat :=
  (Nf.Policer.init c size).bind fun s => (Nf.Policer.run c s ps).map fun r => policedBytes c.wanDevice 1 ps r.2

theorem claim_false_of {c : Config} {size : Nat} {ps : List Packet} {T n : Nat} (ht : policedTotal c size ps = some n)
    (hn : c.burst + c.rate * T < n) (hm : MonoFrom 0 ps) (hp : ∀ p ∈ ps, p.time ≤ T ∧ p.time < timeMax ∧ p.device < 2) :
    ¬ RateClaim c size := by
  intro h
  simp only [policedTotal, Option.bind_eq_some_iff, Option.map_eq_some_iff] at ht
  obtain ⟨s0, h1, ⟨s2, outs⟩, h2, h3⟩ := ht
  simp only at h3
  have := h [] ps s0 s0 s2 [] outs 1 0 T hm (fun p hpm => (hp p hpm).2) (fun p hpm => ⟨Nat.zero_le _, by have := (hp p hpm).1; omega⟩)
    h1 rfl h2
  omega

/-- The claim is false when the rate does not divide the burst: with rate 3 and burst 5,
12 bytes pass within 2 time units. -/
theorem C45_rate_claim_false_rounding : ¬ RateClaim ⟨1, 3, 5⟩ 1 :=
  claim_false_of (ps := [wanPacket 1 4 0, wanPacket 1 4 1, wanPacket 1 4 2]) (T := 2) (n := 12) (by decide) (by decide)
    (by simp [MonoFrom, wanPacket]) (by simp [wanPacket, timeMax])

/-- It fails badly when the rate exceeds the burst: there is no limit at all on what can
be forwarded at a single point in time. -/
theorem C45_rate_claim_false_large_rate : ¬ RateClaim ⟨1, 100, 10⟩ 1 :=
  claim_false_of (ps := [wanPacket 1 9 0, wanPacket 1 9 0]) (T := 0) (n := 18) (by decide) (by decide)
    (by simp [MonoFrom, wanPacket]) (by simp [wanPacket, timeMax])

/-- It also fails when the expiration time wraps around: with rate 2^32 and a burst of
2^55 bytes the expiration time is 0 instead of about 97 days' worth of time units, so a
second address evicts the first after one time unit, and the first starts afresh. -/
theorem C45_rate_claim_false_expiration_wrap : ¬ RateClaim ⟨1, 2 ^ 32, 2 ^ 55⟩ 1 :=
  claim_false_of (ps := [wanPacket 1 (2 ^ 55) 0, wanPacket 2 1 1, wanPacket 1 (2 ^ 55) 2]) (T := 2) (n := 2 ^ 56)
    (by decide) (by decide) (by simp [MonoFrom, wanPacket]) (by simp [wanPacket, timeMax])

/-- Non-vacuity of the partial theorems: rate 2 divides burst 10; packets within budget
pass, one above it is dropped, and after some time the next one passes. -/
example : (2 : Nat) ∣ 10 ∧ 1000000000 * 10 < 2 ^ 64 ∧
    (policedTotal ⟨1, 2, 10⟩ 1 [wanPacket 1 6 0, wanPacket 1 5 0, wanPacket 1 5 1]) = some 11 := by
  refine ⟨⟨5, rfl⟩, by omega, by decide⟩

end Verif.Props
