/- Property C86: the benchmark with the bridge, the policer, the load balancer and the network function that does nothing. -/
import Verif.Nf.Router
import Verif.Props.Bench
import Verif.Props.Bridge
import Verif.Props.Maglev
import Verif.Props.Policer

set_option autoImplicit false

namespace Verif.Props
open BenchSpec Verif.Bench
open Verif.PacketSpec (isTcpUdp isIpv4 flow dword)
open Verif.Nf (Packet Flow Out)
open Verif.IndexPoolSpec (timeMax)

/-! ### The whole benchmark -/

/-- The benchmark measures the throughput exactly if the heatup loses at most 1%; the heatup in reverse may lose any number of packets.
(Both must send enough: at least 98% of 100 Mb/s of packets of 84 bytes for 5 seconds.) -/
theorem C86_standard (maglev : Bool) {reverse forward : ℚ × ℚ} (acceptable : ℚ) (trial : Nat → ℚ → List (ℚ × ℚ))
    (hr : 98 / 100 * (100 * 1000000 / (84 * 8) * 5) ≤ reverse.1) (hf : 98 / 100 * (100 * 1000000 / (84 * 8) * 5) ≤ forward.1) :
    standard maglev reverse forward acceptable trial =
      if (forward.1 - forward.2) / forward.1 ≤ 1 / 100 then search acceptable trial else .fatal := by
  have ht : targetTx heatupRate heatupDuration = 100 * 1000000 / (84 * 8) * 5 := by
    simp only [targetTx, heatupRate, heatupDuration, packetSize]
    norm_num
  have h1 : heatUp true reverse = true := by
    rw [heatUp, ht, taskLoss, if_neg (not_lt.mpr hr)]
    rfl
  have h2 : heatUp false forward = decide ((forward.1 - forward.2) / forward.1 ≤ 1 / 100) := by
    rw [heatUp, ht, taskLoss, if_neg (not_lt.mpr hf)]
    simp [← not_lt]
  rw [standard, h1, h2]
  by_cases h : (forward.1 - forward.2) / forward.1 ≤ 1 / 100
  · rw [if_pos h, decide_eq_true h]; simp
  · rw [if_neg h, decide_eq_false h]; simp

/-- A heatup that loses 10 packets of 744047, after one in reverse that loses all. -/
example : (98 / 100 * (100 * 1000000 / (84 * 8) * 5) : ℚ) ≤ ((744047 : ℚ), (0 : ℚ)).1 ∧
    ((744047 : ℚ) - 744037) / 744047 ≤ 1 / 100 := by norm_num

/-- The ports are exchanged if the cables are: packets of direction 0 arrive at device 0, and with the option for Maglev at device 1. -/
theorem C86_devices (crossed : Bool) {direction : Nat} (h : direction < 2) :
    inputDevice crossed false direction = direction ∧ inputDevice crossed true direction = 1 - direction := by
  have : direction = 0 ∨ direction = 1 := by omega
  rcases this with rfl | rfl <;> cases crossed <;> decide

namespace BenchProofs

theorem packetOn_usual (e : Encoding) (layer : Nat) (crossed : Bool) {x : Sent} (h : x.direction < 2) :
    packetOn e layer crossed false x = packet e layer x := by
  rw [packetOn, (C86_devices crossed h).1]
  rfl

theorem map_packetOn (e : Encoding) (layer : Nat) (crossed : Bool) {flows : Nat} {xs : List Sent} (ht : Trace flows xs) :
    xs.map (packetOn e layer crossed false) = xs.map (packet e layer) :=
  List.map_congr_left fun x hx => packetOn_usual e layer crossed (ht.packets x hx).1

end BenchProofs
open BenchProofs

/-! ### The network function that does nothing -/

/-- `nop`, with the devices of its configuration, sends every packet of the benchmark to the other device. -/
theorem C86_nop (e : Encoding) (layer : Nat) (crossed : Bool) {flows : Nat} {xs : List Sent} (ht : Trace flows xs) :
    Nf.Nop.init 2 0 1 = some (0, 1) ∧
    (xs.map (packetOn e layer crossed false)).map (Nf.Nop.handle 0 1) =
      xs.map fun x => [Out.transmit (packetOn e layer crossed false x) (1 - x.direction) true] := by
  refine ⟨rfl, ?_⟩
  rw [List.map_map]
  refine List.map_congr_left fun x hx => ?_
  have h := (ht.packets x hx).1
  have hd : (packetOn e layer crossed false x).device = x.direction := (C86_devices crossed h).1
  simp only [Function.comp, Nf.Nop.handle, hd]
  have : x.direction = 0 ∨ x.direction = 1 := by omega
  rcases this with h | h <;> simp [h]

/-- The usual benchmark. -/
example : Trace 60000 usual ∧ 0 < usual.length := ⟨usual_ok.1, by rw [usual]; simp [task]⟩

/-! ### The load balancer -/

namespace BenchProofs

theorem isTcpUdp_on (e : Encoding) (layer : Nat) (crossed maglev : Bool) (x : Sent) : isTcpUdp (packetOn e layer crossed maglev x) :=
  isTcpUdp_packet e layer x

theorem balance_bench {e : Encoding} {layer bexp : Nat} {crossed : Bool} {choose : Flow → (Nat → Bool) → Option Nat} :
    ∀ (xs pre : List Sent) (beat : Nat → Option Nat) (outs : List (List Out)),
      (∀ x ∈ xs, x.direction < 2) → (pre ++ xs).Pairwise (fun x y => x.time ≤ y.time) →
      (∀ y ∈ pre, y.direction = 1 → ∃ t, beat 0 = some t ∧ y.time ≤ t) →
      (∀ pre' x post, pre ++ xs = pre' ++ x :: post → x.direction = 0 → ∃ y ∈ pre', y.direction = 1 ∧ x.time ≤ y.time + bexp) →
      BalanceOk 2 bexp choose beat (xs.map (packetOn e layer crossed true)) outs →
      outs = xs.map fun x => if x.direction = 0 then [Out.transmit (packetOn e layer crossed true x) 0 false] else [] := by
  intro xs
  induction xs with
  | nil => intro pre beat outs _ _ _ _ h; exact h
  | cons x xs ih =>
    intro pre beat outs hd hs hb hbeat h
    obtain ⟨o, os, rfl, h1, h2, h3⟩ := h
    have hxd := hd x (by simp)
    have hdev : (packetOn e layer crossed true x).device = 1 - x.direction := (C86_devices crossed hxd).2
    have htu := isTcpUdp_on e layer crossed true x
    have hrest := ih (pre ++ [x]) _ os (fun y hy => hd y (by simp [hy])) (by simpa using hs) (by
      intro y hy hy1
      have hrec : x.direction = 1 → MaglevSpec.next 2 beat (packetOn e layer crossed true x) 0 = some x.time := by
        intro h1
        simp only [MaglevSpec.next]
        rw [if_pos ⟨htu, by rw [hdev]; omega⟩, if_pos (by rw [hdev]; omega)]
        rfl
      by_cases hx1 : x.direction = 1
      · refine ⟨x.time, hrec hx1, ?_⟩
        rcases List.mem_append.mp hy with hy | hy
        · rw [List.pairwise_append] at hs
          exact hs.2.2 y hy x (by simp)
        · rw [List.mem_singleton] at hy; rw [hy]
      · have : MaglevSpec.next 2 beat (packetOn e layer crossed true x) = beat := by
          simp only [MaglevSpec.next]
          rw [if_neg (by rw [hdev]; omega)]
        rw [this]
        rcases List.mem_append.mp hy with hy | hy
        · exact hb y hy hy1
        · rw [List.mem_singleton] at hy; rw [hy] at hy1; exact absurd hy1 hx1)
      (fun pre' z post he => hbeat pre' z post (by simpa using he)) h3
    rw [hrest, List.map_cons]
    congr 1
    by_cases h0 : x.direction = 0
    · rw [if_pos h0]
      have hc : MaglevSpec.isClient 2 (packetOn e layer crossed true x) := ⟨htu, by rw [hdev]; omega⟩
      obtain ⟨y, hy, hy1, hyt⟩ := hbeat pre x xs rfl h0
      obtain ⟨t, ht, hyt'⟩ := hb y hy hy1
      have hl : MaglevSpec.live bexp x.time beat 0 = true := by
        simp only [MaglevSpec.live, ht, decide_eq_true_eq]
        omega
      rcases h2 hc with ⟨_, h⟩ | ⟨b, hb, hlt, _⟩
      · have := h 0 (by omega)
        rw [show (packetOn e layer crossed true x).time = x.time from rfl, hl] at this
        cases this
      · rw [hb, show b = 0 by omega]
    · rw [if_neg h0]
      refine h1 fun hc => ?_
      apply hc.2
      rw [hdev]
      omega

end BenchProofs

/-- The load balancer, with the option for Maglev, sends every packet of direction 0 to its backend, if each one follows a packet of direction 1
by at most the expiration time of backends, as the heatup in reverse ensures. -/
theorem C86_maglev (e : Encoding) (layer : Nat) (crossed : Bool) (hash : Flow → Nat) {flows fcap fexp bexp h : Nat} {xs : List Sent}
    (hh : 1 < h) (hh' : h < 40000) (ht : Trace flows xs)
    (hbeat : ∀ pre x post, xs = pre ++ x :: post → x.direction = 0 → ∃ y ∈ pre, y.direction = 1 ∧ x.time ≤ y.time + bexp) :
    ∃ s0 s, Nf.Maglev.init 2 fcap fexp bexp h = some s0 ∧ Nf.Maglev.run hash 2 s0 (xs.map (packetOn e layer crossed true)) =
      some (s, xs.map fun x => if x.direction = 0 then [Out.transmit (packetOn e layer crossed true x) 0 false] else []) := by
  obtain ⟨s0, choose, h1, h2⟩ := C47_live_backend_partial 2 fcap fexp bexp h (by omega) (by omega) hh'
    (fun s h1 h2 => by rw [show s = 1 by omega]; exact Nat.coprime_one_right h) hash
  obtain ⟨s, outs, h3, h4⟩ := h2 (xs.map (packetOn e layer crossed true)) (fun p hp => by
    obtain ⟨x, hx, rfl⟩ := List.mem_map.mp hp
    exact (ht.packets x hx).2.2)
  refine ⟨s0, s, h1, ?_⟩
  rw [h3, balance_bench xs [] _ outs (fun x hx => (ht.packets x hx).1) ht.sorted (by simp) hbeat h4]

namespace BenchProofs

/-- A heatup in reverse of one packet, one of two packets, and a trial. -/
def maglevTrace : List Sent := [⟨1, 0, 5, 60, fun _ => 0⟩, ⟨0, 0, 1000, 60, fun _ => 0⟩, ⟨0, 1, 2000, 60, fun _ => 0⟩, ⟨0, 0, 4000000000, 60, fun _ => 0⟩]

end BenchProofs

/-- The configuration of the load balancer. -/
example : (1 < 97 ∧ 97 < 40000) ∧ Trace 60000 maglevTrace ∧
    ∀ pre x post, maglevTrace = pre ++ x :: post → x.direction = 0 → ∃ y ∈ pre, y.direction = 1 ∧ x.time ≤ y.time + 1000000000000000 := by
  refine ⟨by omega, ⟨by simp [maglevTrace], ?_⟩, ?_⟩
  · intro x hx
    simp only [maglevTrace, List.mem_cons, List.not_mem_nil, or_false] at hx
    rcases hx with rfl | rfl | rfl | rfl <;> exact ⟨by norm_num, by norm_num, by rw [timeMax]; norm_num⟩
  · intro pre x post h hx
    have hm : x ∈ maglevTrace := by rw [h]; simp
    have ht : x.time ≤ 4000000000 := by
      simp only [maglevTrace, List.mem_cons, List.not_mem_nil, or_false] at hm
      rcases hm with rfl | rfl | rfl | rfl <;> norm_num
    cases pre with
    | nil =>
      rw [maglevTrace, List.nil_append, List.cons.injEq] at h
      rw [← h.1] at hx
      cases hx
    | cons y pre =>
      rw [maglevTrace, List.cons_append, List.cons.injEq] at h
      refine ⟨y, by simp, by rw [← h.1], by omega⟩

/-- Without the option, it takes the packets of direction 0 for heartbeats and sends none on: the heatup loses all packets, and the benchmark
ends with an error. -/
theorem C86_maglev_needs_option (e : Encoding) (layer : Nat) (crossed : Bool) (hash : Flow → Nat) {flows fcap fexp bexp h : Nat} {xs : List Sent}
    (hh : 1 < h) (hh' : h < 40000) (ht : Trace flows xs) (h0 : ∀ x ∈ xs, x.direction = 0) :
    (∃ s0 s, Nf.Maglev.init 2 fcap fexp bexp h = some s0 ∧
      Nf.Maglev.run hash 2 s0 (xs.map (packetOn e layer crossed false)) = some (s, xs.map fun _ => [])) ∧
    ∀ (sent : ℚ) (acceptable : ℚ) (trial : Nat → ℚ → List (ℚ × ℚ)) (reverse : ℚ × ℚ), 0 < sent →
      standard false reverse (sent, 0) acceptable trial = .fatal := by
  constructor
  · obtain ⟨s0, choose, h1, h2⟩ := C47_live_backend_partial 2 fcap fexp bexp h (by omega) (by omega) hh'
      (fun s h1 h2 => by rw [show s = 1 by omega]; exact Nat.coprime_one_right h) hash
    obtain ⟨s, outs, h3, h4⟩ := h2 (xs.map (packetOn e layer crossed false)) (fun p hp => by
      obtain ⟨x, hx, rfl⟩ := List.mem_map.mp hp
      exact (ht.packets x hx).2.2)
    refine ⟨s0, s, h1, ?_⟩
    rw [h3]
    have : ∀ (ys : List Sent) (beat : Nat → Option Nat) (outs : List (List Out)), (∀ x ∈ ys, x.direction = 0) →
        BalanceOk 2 bexp choose beat (ys.map (packetOn e layer crossed false)) outs → outs = ys.map fun _ => [] := by
      intro ys
      induction ys with
      | nil => intro _ outs _ h; exact h
      | cons y ys ih =>
        intro beat outs hy h
        obtain ⟨o, os, rfl, g1, -, g3⟩ := h
        rw [ih _ os (fun z hz => hy z (by simp [hz])) g3, List.map_cons]
        congr 1
        refine g1 fun hc => hc.2 ?_
        have hd := hy y (by simp)
        have := (C86_devices crossed (direction := y.direction) (by omega)).1
        change inputDevice crossed false y.direction < 1
        omega
    rw [this xs _ outs h0 h4]
  · intro sent acceptable trial reverse hs
    have : heatUp false (sent, 0) = false := by
      rw [heatUp, taskLoss]
      split
      · rfl
      · rename_i loss h
        split at h
        · cases h
        · cases h
          simp only [sub_zero]
          rw [div_self (ne_of_gt hs)]
          norm_num
    rw [standard, this]
    simp

/-- The heatup without the option. -/
example : Trace 60000 (task 0 60000 heatupBatch 0 6720 744047 60 fun _ => 0) ∧
    ∀ x ∈ task 0 60000 heatupBatch 0 6720 744047 60 (fun _ => 0), x.direction = 0 := by
  refine ⟨⟨task_sorted .., fun x hx => usual_ok.1.packets x (by rw [usual]; exact List.mem_append_left _ hx)⟩, fun x hx => ?_⟩
  simp only [task, List.mem_map] at hx
  obtain ⟨i, -, rfl⟩ := hx
  rfl

/-! ### The policer -/

namespace BenchProofs
open Verif.Nf.Policer (Config State Bucket)

/-- The bytes from the WAN to address `a`. -/
def bytesTo (wan a : Nat) (ps : List Packet) : Nat := ((ps.filter fun p => decide (p.device = wan ∧ dword p 30 = a)).map Packet.length).sum

theorem bytesTo_cons (wan a : Nat) (p : Packet) (ps : List Packet) :
    bytesTo wan a (p :: ps) = (if p.device = wan ∧ dword p 30 = a then p.length else 0) + bytesTo wan a ps := by
  unfold bytesTo
  by_cases h : p.device = wan ∧ dword p 30 = a
  · rw [List.filter_cons_of_pos (by simpa using h), if_pos h, List.map_cons, List.sum_cons]
  · rw [List.filter_cons_of_neg (by simpa using h), if_neg h, Nat.zero_add]

theorem refill_ge {c : Config} (hb : c.burst ≤ 2 ^ 63) {b : Bucket} {t : Nat} (hs : b.size ≤ c.burst) : b.size ≤ Nf.Policer.refill c b t := by
  unfold Nf.Policer.refill
  dsimp only
  generalize (2 ^ 64 + t - b.time) % 2 ^ 64 = d
  split
  · rename_i h
    have h1 : d * c.rate < 2 ^ 63 := by
      have := Nat.mul_le_mul_right c.rate (Nat.succ_le_of_lt h)
      have := Nat.div_mul_le_self c.burst c.rate
      by_cases h0 : c.rate = 0
      · rw [h0]; simp
      · have : d * c.rate < (d + 1) * c.rate := Nat.mul_lt_mul_of_pos_right (by omega) (by omega)
        have : (d + 1) * c.rate ≤ c.burst := by
          have h2 : (d + 1) * c.rate ≤ c.burst / c.rate * c.rate := Nat.mul_le_mul_right c.rate h
          omega
        omega
    rw [Nat.mod_eq_of_lt (by omega : d * c.rate < 2 ^ 64), Nat.mod_eq_of_lt (by omega)]
    split <;> omega
  · exact hs

/-- What holds after packets whose bytes are `spent`, with all addresses among `as`. -/
structure Budget (c : Config) (as : List Nat) (spent : Nat → Nat) (s : State) : Prop where
  known : ∀ a i t, Nf.look s.table a = some (i, t) → a ∈ as ∧ ∃ b, s.buckets[i]? = some b ∧ c.burst ≤ b.size + spent a

theorem room {size exp : Nat} {tb : Nf.Table Nat} {as : List Nat} {a t : Nat} (hsize : as.length ≤ size) (ha : a ∈ as)
    (hn : Nf.look tb a = none) (hall : ∀ k i u, Nf.look tb k = some (i, u) → k ∈ as)
    (hfull : ∀ i < size, ∃ k v, Nf.look tb k = some (i, v) ∧ IndexPoolSpec.young t exp v = true) : False := by
  choose! f hf using hfull
  have hnd : ((List.range size).map f).Nodup := by
    refine List.Nodup.map_on ?_ List.nodup_range
    intro i hi j hj h
    rw [List.mem_range] at hi hj
    obtain ⟨u, hu, -⟩ := hf i hi
    obtain ⟨v, hv, -⟩ := hf j hj
    rw [h, hv] at hu
    cases hu
    rfl
  have hsub : (a :: (List.range size).map f) ⊆ as := by
    intro k hk
    rcases List.mem_cons.mp hk with rfl | hk
    · exact ha
    · obtain ⟨i, hi, rfl⟩ := List.mem_map.mp hk
      obtain ⟨u, hu, -⟩ := hf i (List.mem_range.mp hi)
      exact hall _ _ _ hu
  have hnd' : (a :: (List.range size).map f).Nodup := by
    rw [List.nodup_cons]
    refine ⟨fun h => ?_, hnd⟩
    obtain ⟨i, hi, h⟩ := List.mem_map.mp h
    obtain ⟨u, hu, -⟩ := hf i (List.mem_range.mp hi)
    rw [h, hn] at hu
    cases hu
  have := (List.subperm_of_subset hnd' hsub).length_le
  simp at this
  omega

theorem police_budget {c : Config} {size exp now : Nat} {s : State} (inv : PolInv c size exp now s) {as : List Nat} {spent : Nat → Nat}
    (hbud : Budget c as spent s) (hb : c.burst ≤ 2 ^ 63) (hsize : as.length ≤ size) {t len a : Nat} (hn : now ≤ t) (ht : t < timeMax)
    (ha : a ∈ as) (hlen : spent a + len < c.burst) :
    ∃ s', Nf.Policer.police c s t len a = some (s', true) ∧ PolInv c size exp t s' ∧
      Budget c as (fun x => spent x + if x = a then len else 0) s' := by
  obtain ⟨s', ok, h1, h2, -⟩ := police_step inv (len := len) (addr := a) hn ht
  suffices h : ok = true ∧ Budget c as (fun x => spent x + if x = a then len else 0) s' from ⟨s', by rw [h1, h.1], h2, h.2⟩
  unfold Nf.Policer.police at h1
  cases hg : s.table.map.get a with
  | some i =>
    obtain ⟨t0, _, hl⟩ := Nf.look_of_get inv.inv hg
    obtain ⟨tb', g1, g2, g3, g4, g5⟩ := Nf.refresh_spec inv.inv hl ht
    obtain ⟨-, b, hbk, hsz⟩ := hbud.known a i t0 hl
    have hbb := inv.bound b (List.mem_of_getElem? hbk)
    have hr := refill_ge hb (t := t) hbb
    have hil := (Nf.look_key inv.inv hl).2
    have hib : i < s.buckets.length := by rw [inv.blen]; exact hil
    simp only [hg, Nf.Policer.known, g1, hbk, Option.bind_eq_bind, Option.bind_some] at h1
    rw [if_pos (by omega)] at h1
    cases h1
    refine ⟨rfl, ⟨fun k j u hk => ?_⟩⟩
    simp only at hk
    rw [g5] at hk
    by_cases he : k = a
    · rw [if_pos he] at hk
      cases hk
      refine ⟨he ▸ ha, _, List.getElem?_set_self hib, ?_⟩
      rw [if_pos he]
      simp only
      rw [he]
      omega
    · rw [if_neg he] at hk
      obtain ⟨h3, b', h4, h5⟩ := hbud.known k j u hk
      have hne : i ≠ j := by rintro rfl; exact he (Nf.look_inj inv.inv hk hl)
      exact ⟨h3, b', by simpa [List.getElem?_set, hne] using h4, by rw [if_neg he]; omega⟩
  | none =>
    have hl : Nf.look s.table a = none := Nf.look_none_of_get hg
    simp only [hg, Nf.Policer.unknown] at h1
    rw [if_neg (by omega)] at h1
    obtain ⟨tb', r, g1, g2, g3⟩ := Nf.insert_spec inv.inv hl ht
    rcases g3 with ⟨rfl, g4, g5⟩ | ⟨i, rfl, hi, g4, g5, g6⟩
    · exact absurd (room hsize ha hl (fun k i u hk => (hbud.known k i u hk).1) g5) id
    · have hib : i < s.buckets.length := by rw [inv.blen]; exact hi
      simp only [g1, Option.bind_eq_bind, Option.bind_some, if_pos hib] at h1
      cases h1
      refine ⟨rfl, ⟨fun k j u hk => ?_⟩⟩
      simp only at hk
      by_cases he : k = a
      · rw [he, g5] at hk
        cases hk
        refine ⟨he ▸ ha, _, List.getElem?_set_self hib, ?_⟩
        rw [if_pos he]
        simp only
        omega
      · rw [g6 k he] at hk
        simp only [Option.filter_eq_some_iff, decide_eq_true_eq] at hk
        obtain ⟨hk, hji⟩ := hk
        obtain ⟨h3, b', h4, h5⟩ := hbud.known k j u hk
        exact ⟨h3, b', by simpa [List.getElem?_set, Ne.symm hji] using h4, by rw [if_neg he]; omega⟩

theorem policer_run {c : Config} {size exp : Nat} (hb : c.burst ≤ 2 ^ 63) {as : List Nat} (hsize : as.length ≤ size) :
    ∀ (ps : List Packet) (now : Nat) (s : State) (spent : Nat → Nat), PolInv c size exp now s → Budget c as spent s →
      MonoFrom now ps → (∀ p ∈ ps, p.time < timeMax ∧ p.device < 2 ∧ isIpv4 p ∧ (p.device = c.wanDevice → dword p 30 ∈ as)) →
      (∀ a, (∃ p ∈ ps, p.device = c.wanDevice ∧ dword p 30 = a) → spent a + bytesTo c.wanDevice a ps < c.burst) →
      ∃ s', Nf.Policer.run c s ps = some (s', ps.map fun p => [Out.transmit p (1 - p.device) false]) := by
  intro ps
  induction ps with
  | nil => intro now s spent _ _ _ _ _; exact ⟨s, rfl⟩
  | cons p ps ih =>
    intro now s spent inv hbud hm hp hsp
    obtain ⟨hpt, hpd, hip, has⟩ := hp p (by simp)
    have hh : Nf.getIpv4Header p.data (Nf.getEtherHeader p) = some 14 := by rw [Nf.getIpv4Header_eq, if_pos hip]
    by_cases hw : p.device = c.wanDevice
    · have hlen := hsp (dword p 30) ⟨p, by simp, hw, rfl⟩
      rw [bytesTo_cons, if_pos ⟨hw, rfl⟩] at hlen
      obtain ⟨s1, h1, h2, h3⟩ := police_budget inv hbud hb hsize hm.1 hpt (has hw) (len := p.length) (by omega)
      obtain ⟨s2, h4⟩ := ih p.time s1 _ h2 h3 hm.2 (fun q hq => hp q (by simp [hq])) (by
        rintro a ⟨q, hq, hqw, hqa⟩
        have := hsp a ⟨q, by simp [hq], hqw, hqa⟩
        rw [bytesTo_cons] at this
        by_cases ha : a = dword p 30
        · rw [if_pos ⟨hw, ha.symm⟩] at this
          rw [if_pos ha]
          omega
        · rw [if_neg ha]
          omega)
      refine ⟨s2, ?_⟩
      have h1' : Nf.Policer.police c s p.time p.length (Nf.ld32 p.data (14 + 16)) = some (s1, true) := by
        rw [Nf.ld32_dword]; exact h1
      rw [Nf.Policer.run, Nf.Policer.handle, hh]
      simp only [if_pos hw, h1', Option.bind_eq_bind, Option.bind_some, h4, List.map_cons, other_device hpd]
    · obtain ⟨s2, h4⟩ := ih p.time s spent ⟨inv.inv, inv.blen, inv.bound, fun a i t h =>
          ⟨Nat.le_trans (inv.times a i t h).1 hm.1, (inv.times a i t h).2⟩⟩ hbud hm.2 (fun q hq => hp q (by simp [hq])) (by
        rintro a ⟨q, hq, hqw, hqa⟩
        have := hsp a ⟨q, by simp [hq], hqw, hqa⟩
        rw [bytesTo_cons, if_neg (fun h => hw h.1)] at this
        omega)
      refine ⟨s2, ?_⟩
      rw [Nf.Policer.run, Nf.Policer.handle, hh]
      simp only [if_neg hw, Option.bind_eq_bind, Option.bind_some, h4, List.map_cons, other_device hpd]

theorem dst_packet (e : Encoding) (layer : Nat) {x : Sent} (h : x.direction = 0) :
    dword (packet e layer x) 30 = 198 + 256 * 18 + 65536 * 1 := by
  simp only [dword, PacketSpec.byte, packet, bytes, packetConfig, packetInit, h]
  by_cases h2 : layer = 2
  · simp [h2, field]
  by_cases h3 : layer = 3
  · simp [h3, field]
  · simp [h2, h3, field]

theorem dst_same (e : Encoding) (layer : Nat) {x y : Sent} (h : x.direction = y.direction) (hc : x.counter = y.counter) :
    dword (packet e layer x) 30 = dword (packet e layer y) 30 := by
  simp only [dword, PacketSpec.byte, packet, bytes, h, hc]
  simp

theorem bytesTo_le (e : Encoding) (layer wan a : Nat) : ∀ xs : List Sent,
    bytesTo wan a (xs.map (packet e layer)) ≤ ((xs.filter fun x => decide (x.direction = wan)).map Sent.length).sum := by
  intro xs
  induction xs with
  | nil => simp [bytesTo]
  | cons x xs ih =>
    rw [List.map_cons, bytesTo_cons]
    by_cases h : x.direction = wan
    · rw [List.filter_cons_of_pos (by simpa using h), List.map_cons, List.sum_cons]
      have : (if (packet e layer x).device = wan ∧ dword (packet e layer x) 30 = a then (packet e layer x).length else 0) ≤ x.length := by
        split
        · exact Nat.le_refl _
        · exact Nat.zero_le _
      omega
    · rw [List.filter_cons_of_neg (by simpa using h), if_neg (fun h' => h h'.1), Nat.zero_add]
      exact ih

end BenchProofs

/-- The policer lets all packets of the benchmark through if those from the WAN have less bytes than a burst in all. If the WAN is device 0, as in
its configuration, a table with room for one address is enough. -/
theorem C86_policer (e : Encoding) (layer : Nat) (crossed : Bool) {flows size : Nat} {c : Nf.Policer.Config} {xs : List Sent} (hr : 0 < c.rate)
    (hb : c.burst ≤ 2 ^ 63) (ht : Trace flows xs) (hsize : (if c.wanDevice = 0 then 1 else flows) ≤ size)
    (hbytes : ((xs.filter fun x => decide (x.direction = c.wanDevice)).map Sent.length).sum < c.burst) :
    ∃ s0 s, Nf.Policer.init c size = some s0 ∧ Nf.Policer.run c s0 (xs.map (packetOn e layer crossed false)) =
      some (s, xs.map fun x => [Out.transmit (packetOn e layer crossed false x) (1 - x.direction) false]) := by
  obtain ⟨tb, h1, h2, h3⟩ := Nf.inv_alloc 0 size (1000000000 * c.burst % 2 ^ 64 / c.rate)
  have hinit : Nf.Policer.init c size = some ⟨tb, List.replicate size ⟨0, 0⟩⟩ := by
    unfold Nf.Policer.init
    rw [if_neg (by omega), h1]
    rfl
  obtain ⟨hinv, -, -⟩ := policer_init hinit
  let as := if c.wanDevice = 0 then [198 + 256 * 18 + 65536 * 1]
    else (List.range flows).map fun k => dword (packet e layer ⟨c.wanDevice, k, 0, 0, fun _ => 0⟩) 30
  have hlen : as.length ≤ size := by
    by_cases h : c.wanDevice = 0
    · simpa only [as, if_pos h, List.length_singleton] using hsize
    · simpa only [as, if_neg h, List.length_map, List.length_range] using hsize
  obtain ⟨s, hs⟩ := BenchProofs.policer_run hb hlen (xs.map (packet e layer)) 0 _ (fun _ => 0) hinv
    ⟨fun a i t h => by rw [h3] at h; cases h⟩ (monoFrom_of_sorted e layer ht.sorted fun _ _ => Nat.zero_le _) (by
      intro p hp
      obtain ⟨x, hx, rfl⟩ := List.mem_map.mp hp
      refine ⟨(ht.packets x hx).2.2, (ht.packets x hx).1, (isTcpUdp_packet e layer x).1, fun hw => ?_⟩
      have hw : x.direction = c.wanDevice := hw
      by_cases h : c.wanDevice = 0
      · simp only [as, if_pos h, List.mem_singleton]
        exact dst_packet e layer (hw.trans h)
      · simp only [as, if_neg h, List.mem_map, List.mem_range]
        exact ⟨x.counter, (ht.packets x hx).2.1, dst_same e layer hw.symm rfl⟩)
    (by
      intro a _
      have := bytesTo_le e layer c.wanDevice a xs
      omega)
  refine ⟨_, s, hinit, ?_⟩
  rw [map_packetOn e layer crossed ht, hs, List.map_map]
  congr 2
  refine List.map_congr_left fun x hx => ?_
  rw [packetOn_usual e layer crossed (ht.packets x hx).1]
  rfl

/-- The usual benchmark and the configuration of the policer. -/
example : (10 ^ 15 : Nat) ≤ 2 ^ 63 ∧ Trace 60000 usual ∧ ((usual.filter fun x => decide (x.direction = 0)).map Sent.length).sum < 10 ^ 15 := by
  refine ⟨by norm_num, usual_ok.1, ?_⟩
  have h1 : ∀ n ∈ (usual.filter fun x => decide (x.direction = 0)).map Sent.length, n ≤ 60 := by
    intro n hn
    obtain ⟨x, hx, rfl⟩ := List.mem_map.mp hn
    have hx := (List.mem_filter.mp hx).1
    rw [usual] at hx
    rcases List.mem_append.mp hx with hx | hx <;> simp only [task, List.mem_map] at hx <;> obtain ⟨i, -, rfl⟩ := hx <;> exact Nat.le_refl _
  have h2 := List.sum_le_card_nsmul _ 60 h1
  have h3 : ((usual.filter fun x => decide (x.direction = 0)).map Sent.length).length ≤ 1744047 := by
    rw [List.length_map]
    refine Nat.le_trans (List.length_filter_le ..) ?_
    rw [usual]
    simp [task]
  rw [Nat.nsmul_eq_mul] at h2
  omega

/-- With the WAN at device 0, as in the configuration of the policer, all packets that it polices have the same destination: the benchmark
uses a single bucket, at any layer and with any number of flows. -/
theorem C86_policer_single_bucket (e : Encoding) (layer : Nat) (crossed : Bool) {x : Sent} (hx : x.direction < 2)
    (h : (packetOn e layer crossed false x).device = 0) : dword (packetOn e layer crossed false x) 30 = 198 + 256 * 18 + 65536 * 1 := by
  rw [packetOn_usual e layer crossed hx] at h ⊢
  exact dst_packet e layer h

/-- A packet of direction 0 arrives at device 0. -/
example : (packetOn ⟨fun _ => [], fun _ => []⟩ 4 true false ⟨0, 7, 0, 60, fun _ => 0⟩).device = 0 := by decide

/-! ### The bridge -/

namespace BenchSpec

/-- Ethernet addresses have six bytes, those of the two directions differ, and none is that of spanning tree messages. -/
structure Encoding.Macs (e : Encoding) (flows : Nat) : Prop where
  length : ∀ n, (e.mac n).length = 6
  differ : ∀ m n, m < flows → n < flows → e.mac m ≠ e.mac (0xFF0000000000 + n)
  low : ∀ n, n < flows → e.mac n ≠ [0x01, 0x80, 0xC2, 0, 0, 0]
  high : ∀ n, n < flows → e.mac (0xFF0000000000 + n) ≠ [0x01, 0x80, 0xC2, 0, 0, 0]

/-- Numbers with the most significant byte first, and with the least significant byte first. -/
def bigEndian (k n : Nat) : List UInt8 := (List.range k).reverse.map fun i => UInt8.ofNat (n / 256 ^ i)
def littleEndian (k n : Nat) : List UInt8 := (List.range k).map fun i => UInt8.ofNat (n / 256 ^ i)

/-- The Ethernet address at which a packet of the benchmark at layer 2 is directed. -/
def target (e : Encoding) (x : Sent) : List UInt8 := if x.direction = 0 then e.mac (0xFF0000000000 + x.counter) else e.mac x.counter

/-- What the bridge does with a packet `p` of the benchmark: it goes to the other device, unmodified, or as a spanning tree message when one is due. -/
def Passes (p : Packet) (x : Sent) (o : List Out) : Prop :=
  o = [.transmit p (1 - x.direction) false] ∨ o = [.floodExcept p [false, false] false] ∨
  ∃ q, o = [.flood q true] ∧ BridgeSpec.Message p q

end BenchSpec

namespace BenchProofs

/-- Six bytes as a number. -/
def num (l : List UInt8) : Nat := (field l 0).toNat + 256 * (field l 1).toNat + 65536 * (field l 2).toNat + 16777216 * (field l 3).toNat +
  2 ^ 32 * ((field l 4).toNat + 256 * (field l 5).toNat)

theorem num_inj {l l' : List UInt8} (h : l.length = 6) (h' : l'.length = 6) (hn : num l = num l') : l = l' := by
  match l, l', h, h' with
  | [a, b, c, d, f, g], [a', b', c', d', f', g'], _, _ =>
    simp only [num, field, List.getElem?_cons_zero, List.getElem?_cons_succ, Option.getD_some] at hn
    have := UInt8.toNat_lt a
    have := UInt8.toNat_lt b
    have := UInt8.toNat_lt c
    have := UInt8.toNat_lt d
    have := UInt8.toNat_lt f
    have := UInt8.toNat_lt a'
    have := UInt8.toNat_lt b'
    have := UInt8.toNat_lt c'
    have := UInt8.toNat_lt d'
    have := UInt8.toNat_lt f'
    have e1 : a = a' := toNat_inj (by omega)
    have e2 : b = b' := toNat_inj (by omega)
    have e3 : c = c' := toNat_inj (by omega)
    have e4 : d = d' := toNat_inj (by omega)
    have e5 : f = f' := toNat_inj (by omega)
    have e6 : g = g' := toNat_inj (by omega)
    rw [e1, e2, e3, e4, e5, e6]

/-- The address of the sender with a counter. -/
def mac (e : Encoding) (direction counter : Nat) : Nat := num (if direction = 0 then e.mac counter else e.mac (0xFF0000000000 + counter))

theorem src_bench (e : Encoding) (x : Sent) : BridgeSpec.src (packet e 2 x) = mac e x.direction x.counter := by
  simp only [BridgeSpec.src, BridgeSpec.addr, dword, PacketSpec.word, PacketSpec.byte, packet, bytes, packetConfig, mac, num]
  by_cases h : x.direction = 0 <;> simp [h]

theorem dst_bench (e : Encoding) (x : Sent) : BridgeSpec.dst (packet e 2 x) = num (target e x) := by
  simp only [BridgeSpec.dst, BridgeSpec.addr, dword, PacketSpec.word, PacketSpec.byte, packet, bytes, packetConfig, target, num]
  by_cases h : x.direction = 0 <;> simp [h]

theorem dst_bench' (e : Encoding) {x : Sent} (h : x.direction < 2) : BridgeSpec.dst (packet e 2 x) = mac e (1 - x.direction) x.counter := by
  rw [dst_bench, target, mac]
  have : x.direction = 0 ∨ x.direction = 1 := by omega
  rcases this with h | h <;> simp [h]

theorem mac_differ {e : Encoding} {flows : Nat} (he : Encoding.Macs e flows) {m n : Nat} (hm : m < flows) (hn : n < flows) :
    mac e 0 m ≠ mac e 1 n := fun h => he.differ m n hm hn (num_inj (he.length _) (he.length _) h)

theorem not_stp {e : Encoding} {flows : Nat} (he : Encoding.Macs e flows) {x : Sent} (hc : x.counter < flows) :
    BridgeSpec.dst (packet e 2 x) ≠ BridgeSpec.stpAddr := by
  rw [dst_bench]
  have h : BridgeSpec.stpAddr = num [0x01, 0x80, 0xC2, 0, 0, 0] := by decide
  intro h'
  rw [h, target] at h'
  split at h'
  · exact he.high _ hc (num_inj (he.length _) rfl h')
  · exact he.low _ hc (num_inj (he.length _) rfl h')

/-- What holds of the bridge during the benchmark. -/
structure Learned (e : Encoding) (flows : Nat) (s : BridgeSpec.State) : Prop where
  blocked : s.blocked = [false, false]
  port : ∀ d < 2, ∀ k < flows, ∀ r, s.port (mac e d k) = some r → r = d
  groups : ∀ a, BridgeSpec.group a → s.port a = none

theorem learned_port {c : BridgeSpec.Config} {e : Encoding} {flows : Nat} (he : Encoding.Macs e flows) {s s' : BridgeSpec.State} {x : Sent}
    {o : List Out} (hx : x.direction < 2 ∧ x.counter < flows) (inv : Learned e flows s) (hst : BridgeSpec.Step c s (packet e 2 x) o s') :
    (∀ d < 2, ∀ k < flows, ∀ r, s'.port (mac e d k) = some r → r = d) ∧ ∀ a, BridgeSpec.group a → s'.port a = none := by
  constructor
  · intro d hd k hk r hr
    rw [C46_port_is_last_seen c s s' _ o hst] at hr
    split at hr
    · rename_i h
      obtain ⟨-, h, -⟩ := h
      rw [src_bench] at h
      cases hr
      change x.direction = d
      have h1 : x.direction = 0 ∨ x.direction = 1 := by omega
      have h2 : d = 0 ∨ d = 1 := by omega
      rcases h1 with h1 | h1 <;> rcases h2 with h2 | h2
      · omega
      · rw [h1, h2] at h; exact absurd h (mac_differ he hx.2 hk)
      · rw [h1, h2] at h; exact absurd h.symm (mac_differ he hk hx.2)
      · omega
    · exact inv.port d hd k hk r hr
  · intro a ha
    rw [C46_port_is_last_seen c s s' _ o hst, if_neg (fun h => h.2.2 ha)]
    exact inv.groups a ha

theorem bridge_bench_step {c : BridgeSpec.Config} {e : Encoding} {flows : Nat} (he : Encoding.Macs e flows) {s s' : BridgeSpec.State} {x : Sent}
    {o : List Out} (hx : x.direction < 2 ∧ x.counter < flows) (inv : Learned e flows s) (hst : BridgeSpec.Step c s (packet e 2 x) o s') :
    Learned e flows s' ∧ Passes (packet e 2 x) x o ∧
      ((field (target e x) 0).toNat % 2 = 1 → o = [.floodExcept (packet e 2 x) [false, false] false] ∨ ∃ q, o = [.flood q true]) ∧
      (s'.lastUpdate = s.lastUpdate ∨ s'.lastUpdate = x.time) ∧
      (x.time ≤ (s.lastUpdate + c.updateTime) % 2 ^ 64 → s'.lastUpdate = s.lastUpdate ∧ ∀ q, o ≠ [.flood q true]) := by
  have hns := not_stp he (x := x) hx.2
  obtain ⟨hp, hg⟩ := learned_port he hx inv hst
  have hblk : ∀ p, (BridgeSpec.learn c s p).blocked = s.blocked := by
    intro p; unfold BridgeSpec.learn; split <;> rfl
  have hlast : ∀ p, (BridgeSpec.learn c s p).lastUpdate = s.lastUpdate := by
    intro p; unfold BridgeSpec.learn; split <;> rfl
  cases hst with
  | data outs hd hf =>
    refine ⟨⟨by rw [hblk]; exact inv.blocked, hp, hg⟩, ?_⟩
    cases hf with
    | known d h1 h2 =>
      have h3 : d = 1 - x.direction := by
        rw [dst_bench' e hx.1] at h1
        exact hp _ (by omega) _ hx.2 d h1
      refine ⟨.inl (by rw [h3]), ?_, .inl (hlast _), fun _ => ⟨hlast _, fun q h => by cases h⟩⟩
      intro hodd
      have hgr : BridgeSpec.group (BridgeSpec.dst (packet e 2 x)) := by
        rw [dst_bench, BridgeSpec.group, num]; omega
      rw [hg _ hgr] at h1
      cases h1
    | here h1 =>
      rw [dst_bench' e hx.1] at h1
      have := hp _ (by omega) _ hx.2 _ h1
      change x.direction = 1 - x.direction at this
      omega
    | unknown h1 =>
      rw [hblk, inv.blocked]
      exact ⟨.inr (.inl rfl), fun _ => .inl rfl, .inl (hlast _), fun _ => ⟨hlast _, fun q h => by cases h⟩⟩
  | periodic q h1 h2 =>
    refine ⟨⟨inv.blocked, hp, hg⟩, .inr (.inr ⟨q, rfl, h2⟩), fun _ => .inr ⟨q, rfl⟩, .inr rfl, fun h => ?_⟩
    change (s.lastUpdate + c.updateTime) % 2 ^ 64 < x.time at h1
    omega
  | worse h1 => exact absurd h1.2 hns
  | better _ h1 _ => exact absurd h1.2 hns
  | ignored h1 => exact absurd h1.2 hns

theorem bridge_bench {c : BridgeSpec.Config} {e : Encoding} {flows : Nat} (he : Encoding.Macs e flows) :
    ∀ (xs : List Sent) (s s' : BridgeSpec.State) (outs : List (List Out)), (∀ x ∈ xs, x.direction < 2 ∧ x.counter < flows) →
      Learned e flows s → BridgeSpec.Run c s (xs.map (packet e 2)) outs s' →
      List.Forall₂ (fun x o => Passes (packet e 2 x) x o ∧ ((field (target e x) 0).toNat % 2 = 1 →
        o = [.floodExcept (packet e 2 x) [false, false] false] ∨ ∃ q, o = [.flood q true])) xs outs ∧
      (s.lastUpdate = 0 → c.updateTime < 2 ^ 64 → (∀ x ∈ xs, x.time ≤ c.updateTime) → ∀ o ∈ outs, ∀ q, o ≠ [.flood q true]) := by
  intro xs
  induction xs with
  | nil => intro s s' outs _ _ h; cases h; exact ⟨.nil, fun _ _ _ => by simp⟩
  | cons x xs ih =>
    intro s s' outs hx inv h
    cases h with
    | @cons _ s1 _ _ o _ os hst hr =>
      obtain ⟨h1, h2, h3, h4, h5⟩ := bridge_bench_step he (hx x (by simp)) inv hst
      obtain ⟨h6, h7⟩ := ih _ _ _ (fun y hy => hx y (by simp [hy])) h1 hr
      refine ⟨.cons ⟨h2, h3⟩ h6, ?_⟩
      intro h0 hu hxs o ho q
      have h8 := h5 (by
        rw [h0, Nat.zero_add, Nat.mod_eq_of_lt hu]
        exact hxs x (by simp))
      rcases List.mem_cons.mp ho with rfl | ho
      · exact h8.2 q
      · exact h7 (by rw [h8.1]; exact h0) hu (fun y hy => hxs y (by simp [hy])) o ho q

end BenchProofs

/-- The bridge, with two devices, sends every packet of the benchmark at layer 2 to the other device, whether it knows the destination or
not and whatever the size of its table; it makes it a spanning tree message if one is due, and only then. If the clock does not reach the update time, all packets
go through unmodified. -/
theorem C86_bridge {e : Encoding} (crossed : Bool) {flows size exp updateTime bid : Nat} {xs : List Sent} (he : Encoding.Macs e flows)
    (ht : Trace flows xs) : ∃ s0 s outs, Nf.Bridge.init 2 bid exp size updateTime = some s0 ∧
      Nf.Bridge.run s0 (xs.map (packetOn e 2 crossed false)) = some (s, outs) ∧
      List.Forall₂ (fun x o => Passes (packetOn e 2 crossed false x) x o ∧ ∃ r, o = [r] ∧ sentTo 2 r = [1 - x.direction]) xs outs ∧
      (updateTime < 2 ^ 64 → (∀ x ∈ xs, x.time ≤ updateTime) → ∀ o ∈ outs, ∀ q, o ≠ [.flood q true]) ∧
      List.Forall₂ (fun x o => (field (target e x) 0).toNat % 2 = 1 →
        o = [.floodExcept (packetOn e 2 crossed false x) [false, false] false] ∨ ∃ q, o = [.flood q true]) xs outs := by
  obtain ⟨s0, s, outs, t, h1, h2, h3⟩ := C46_bridge_refines_spec ⟨2, size, exp, updateTime⟩ bid (xs.map (packet e 2)) (Nat.le_refl 2)
    (monoFrom_of_sorted e 2 ht.sorted fun _ _ => Nat.zero_le _) (fun p hp => by
      obtain ⟨x, hx, rfl⟩ := List.mem_map.mp hp
      exact ⟨(ht.packets x hx).2.2, (ht.packets x hx).1⟩)
  obtain ⟨h4, h5⟩ := bridge_bench he xs _ t outs (fun x hx => ⟨(ht.packets x hx).1, (ht.packets x hx).2.1⟩)
    ⟨rfl, fun _ _ _ _ _ h => (by cases h), fun _ _ => rfl⟩ h3
  have h6 := List.forall₂_iff_get.mp h4
  refine ⟨s0, s, outs, h1, by rw [map_packetOn e 2 crossed ht]; exact h2, ?_, h5 rfl, ?_⟩
  · rw [List.forall₂_iff_get]
    refine ⟨h6.1, fun i hi hi' => ?_⟩
    have hx := ht.packets (xs.get ⟨i, hi⟩) (List.get_mem _ _)
    obtain ⟨h7, -⟩ := h6.2 i hi hi'
    rw [packetOn_usual e 2 crossed hx.1]
    refine ⟨h7, ?_⟩
    generalize xs.get ⟨i, hi⟩ = x at *
    have hd : x.direction = 0 ∨ x.direction = 1 := by omega
    have hpd : (packet e 2 x).device = x.direction := rfl
    rcases h7 with h | h | ⟨q, h, hq⟩
    · exact ⟨_, h, rfl⟩
    · refine ⟨_, h, ?_⟩
      rcases hd with hd | hd <;> simp [sentTo, hpd, hd, List.range_succ]
    · refine ⟨_, h, ?_⟩
      rcases hd with hd | hd <;> simp [sentTo, hq.1, hpd, hd, List.range_succ]
  · rw [List.forall₂_iff_get]
    refine ⟨h6.1, fun i hi hi' => ?_⟩
    have hx := ht.packets (xs.get ⟨i, hi⟩) (List.get_mem _ _)
    rw [packetOn_usual e 2 crossed hx.1]
    exact (h6.2 i hi hi').2

/-- Whatever the order of the bytes in which MoonGen writes addresses, `C86_bridge` applies, and some of them are group addresses, which the
bridge does not learn: with the most significant byte first those of direction 1, so that all packets of direction 0 are flooded; with the
least significant byte first those with odd numbers in both directions. -/
theorem C86_bridge_floods (e : Encoding) {flows : Nat} (hf : flows ≤ 65536) :
    ((e.mac = bigEndian 6 ∨ e.mac = littleEndian 6) → Encoding.Macs e flows) ∧
    ∀ x : Sent, x.direction < 2 → x.counter < flows →
      (e.mac = bigEndian 6 → ((field (target e x) 0).toNat % 2 = 1 ↔ x.direction = 0)) ∧
      (e.mac = littleEndian 6 → ((field (target e x) 0).toNat % 2 = 1 ↔ x.counter % 2 = 1)) := by
  have hr : List.range 6 = [0, 1, 2, 3, 4, 5] := by decide
  have hn : ∀ a : Nat, (UInt8.ofNat a).toNat = a % 256 := fun a => UInt8.toNat_ofNat'
  constructor
  · rintro (h | h)
    · refine ⟨fun n => by rw [h]; simp [bigEndian], fun m n hm hn' hc => ?_, fun n hn' hc => ?_, fun n hn' hc => ?_⟩ <;>
        rw [h] at hc <;> simp only [bigEndian, hr, List.reverse_cons, List.reverse_nil, List.nil_append, List.cons_append, List.map_cons,
          List.map_nil, List.cons.injEq, and_true] at hc <;> have hc := congrArg UInt8.toNat hc.1 <;> simp only [hn] at hc
      · omega
      · change _ = 1 at hc
        omega
      · change _ = 1 at hc
        omega
    · refine ⟨fun n => by rw [h]; simp [littleEndian], fun m n hm hn' hc => ?_, fun n hn' hc => ?_, fun n hn' hc => ?_⟩ <;>
        rw [h] at hc <;> simp only [littleEndian, hr, List.map_cons, List.map_nil, List.cons.injEq, and_true] at hc
      · have hc := congrArg UInt8.toNat hc.2.2.2.2.2
        simp only [hn] at hc
        omega
      · have hc := congrArg UInt8.toNat hc.2.2.1
        simp only [hn] at hc
        change _ = 194 at hc
        omega
      · have hc := congrArg UInt8.toNat hc.2.2.2.2.2
        simp only [hn] at hc
        change _ = 0 at hc
        omega
  · intro x hd hc
    constructor
    · intro h
      by_cases h0 : x.direction = 0
      · rw [target, if_pos h0, h, bigEndian, hr]
        change (UInt8.ofNat ((0xFF0000000000 + x.counter) / 1099511627776)).toNat % 2 = 1 ↔ _
        rw [hn]
        omega
      · rw [target, if_neg h0, h, bigEndian, hr]
        change (UInt8.ofNat (x.counter / 1099511627776)).toNat % 2 = 1 ↔ _
        rw [hn]
        omega
    · intro h
      by_cases h0 : x.direction = 0
      · rw [target, if_pos h0, h, littleEndian, hr]
        change (UInt8.ofNat ((0xFF0000000000 + x.counter) / 1)).toNat % 2 = 1 ↔ _
        rw [hn]
        omega
      · rw [target, if_neg h0, h, littleEndian, hr]
        change (UInt8.ofNat (x.counter / 1)).toNat % 2 = 1 ↔ _
        rw [hn]
        omega

/-- The usual benchmark: addresses with the most significant byte first; the update time of the bridge is 10^15. -/
example : Encoding.Macs ⟨bigEndian 6, bigEndian 4⟩ 60000 ∧ Trace 60000 usual ∧ (10 ^ 15 : Nat) < 2 ^ 64 ∧
    ∀ x ∈ usual, x.time ≤ 10 ^ 15 := by
  refine ⟨(C86_bridge_floods _ (by norm_num)).1 (.inl rfl), usual_ok.1, by norm_num, fun x hx => ?_⟩
  rw [usual] at hx
  rcases List.mem_append.mp hx with hx | hx <;> simp only [task, List.mem_map, List.mem_range] at hx <;> obtain ⟨i, hi, rfl⟩ := hx <;>
    dsimp only <;> omega

end Verif.Props
