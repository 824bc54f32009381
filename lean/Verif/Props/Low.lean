/- Property C71: the network functions on the code of their data structures. -/
import Verif.Nf.LowNfProofs
import Verif.Nf.LowFrame
import Verif.Props.Firewall
import Verif.Props.Nat
import Verif.Props.Policer
import Verif.Props.Bridge
import Verif.Props.Maglev

set_option autoImplicit false

namespace Verif.Props
open Verif.Nf (Packet Flow Out)
open Verif.Nf.Low (Layout)
open Verif.PacketSpec (isTcpUdp isIpv4 flow reverse)
open Verif.IndexPoolSpec (timeMax)

namespace LowSpec

/-- The array of `size` keys of `ks` bytes is not at address 0 and overlaps neither the
2048 bytes of the packet buffer nor the 16 bytes of the local variable; the size is one that
os_config_get_size accepts (C02). -/
def Placed (l : Layout) (ks : Nat) : Prop :=
  l.ks = ks ∧ 0 < l.keys ∧ (l.pkt + 2048 ≤ l.keys ∨ l.keys + ks * l.size ≤ l.pkt) ∧
    (l.loc + 16 ≤ l.keys ∨ l.keys + ks * l.size ≤ l.loc) ∧ l.size ≤ (2 ^ 64 - 1) / 64

theorem Placed.fits {l : Layout} {ks : Nat} (h : Placed l ks) (hk : 0 < ks) : Nf.Low.Fits l := by
  obtain ⟨rfl, h1, h2, h3, _⟩ := h
  exact ⟨h1, hk, h2, h3⟩

theorem Placed.size {l : Layout} {ks : Nat} (h : Placed l ks) : l.size * 64 ≤ 2 ^ 64 - 1 := by
  obtain ⟨_, _, _, _, h⟩ := h
  omega

end LowSpec
open LowSpec

/-- Non-vacuity: a place for the keys. -/
example : Placed ⟨4096, 16, 65536, 0, 2048⟩ 16 := by simp [Placed]

namespace LowProofs

theorem flow_alloc {l : Layout} (hl : Placed l 16) (mem : Mem) (exp : Nat) :
    ∃ tb s, Nf.Table.alloc Flow.zero l.size exp = some tb ∧ Nf.Low.alloc l mem exp = some s ∧
      Nf.Low.Sim Nf.Low.FlowOk Nf.Low.flowBytes l s tb := by
  obtain ⟨tb, h1, _⟩ := Nf.inv_alloc Flow.zero l.size exp
  obtain ⟨s, h2, h3⟩ := Nf.Low.sim_alloc (zero := Flow.zero) (V := Nf.Low.FlowOk) (enc := Nf.Low.flowBytes)
    (by simp [Nf.Low.FlowOk, Flow.zero]) (by rw [hl.1]; rfl) hl.size mem exp h1
  exact ⟨tb, s, h1, h2, h3⟩

end LowProofs

/-! ### The firewall -/

/-- On the code of the map and the pool, and with flows that are bytes of memory, the
firewall never accesses memory out of bounds and outputs exactly what a capacity-limited
expiring set of flows prescribes, as in C42. -/
theorem C71_firewall (l : Layout) (hl : Placed l 16) (mem : Mem) (exp ext : Nat) (ps : List Packet) (hm : MonoFrom 0 ps)
    (hp : ∀ p ∈ ps, p.time < timeMax ∧ p.device < 2) :
    ∃ s s', Nf.Low.alloc l mem exp = some s ∧
      Nf.Low.run (Nf.Low.Firewall.handle l ext) s ps = some (s', FirewallSpec.outputs l.size ext exp [] ps) := by
  obtain ⟨tb, s, h1, h2, h3⟩ := LowProofs.flow_alloc hl mem exp
  obtain ⟨tb0, tb', h4, h5⟩ := C42_firewall_refines_expiring_set l.size exp ext ps hm hp
  have : tb0 = tb := by
    have h4' : Nf.Table.alloc Flow.zero l.size exp = some tb0 := h4
    rw [h1] at h4'; cases h4'; rfl
  subst this
  rw [Nf.Low.firewall_run_eq] at h5
  obtain ⟨s', h6, _⟩ := Nf.Low.run_sim (R := Nf.Low.Sim Nf.Low.FlowOk Nf.Low.flowBytes l) (hs := Nf.Low.Firewall.handle l ext)
    (fun r h => Nf.Low.firewall_sim (hl.fits (by omega)) hl.1 r h) ps h3 h5
  exact ⟨s, s', h2, h6⟩

/-- Whatever the times of the packets: each packet is dropped or sent unmodified to the
other device, internal TCP/UDP packets are sent, other traffic is not, and an external packet
is sent only if its reversed flow was used no longer ago than the expiration time. -/
theorem C71_firewall_solicited (l : Layout) (hl : Placed l 16) (mem : Mem) (exp ext : Nat) (ps : List Packet)
    (hp : ∀ p ∈ ps, p.time < timeMax ∧ p.device < 2) :
    ∃ s s' outs, Nf.Low.alloc l mem exp = some s ∧ Nf.Low.run (Nf.Low.Firewall.handle l ext) s ps = some (s', outs) ∧
      outs.length = ps.length ∧
      ∀ (n : Nat) (p : Packet) (o : List Out), ps[n]? = some p → outs[n]? = some o →
        (o = [] ∨ o = [Out.transmit p (1 - p.device) false]) ∧
        (¬ isTcpUdp p → o = []) ∧ (isTcpUdp p → p.device ≠ ext → o ≠ []) ∧
        (isTcpUdp p → p.device = ext → o ≠ [] →
          ∃ t, lastUse ext (reverse (flow p)) ((ps.zip outs).take n) = some t ∧ p.time ≤ t + exp) := by
  obtain ⟨tb, s, h1, h2, h3⟩ := LowProofs.flow_alloc hl mem exp
  obtain ⟨tb0, tb', outs, h4, h5, h6⟩ := C42_never_violates_contracts l.size exp ext ps (fun p h => (hp p h).1)
  have : tb0 = tb := by
    have h4' : Nf.Table.alloc Flow.zero l.size exp = some tb0 := h4
    rw [h1] at h4'; cases h4'; rfl
  subst this
  have h5' := h5
  rw [Nf.Low.firewall_run_eq] at h5'
  obtain ⟨s', h7, _⟩ := Nf.Low.run_sim (R := Nf.Low.Sim Nf.Low.FlowOk Nf.Low.flowBytes l) (hs := Nf.Low.Firewall.handle l ext)
    (fun r h => Nf.Low.firewall_sim (hl.fits (by omega)) hl.1 r h) ps h3 h5'
  exact ⟨s, s', outs, h2, h7, h6, fun n p o hn ho => C42_external_only_if_solicited l.size exp ext ps hp tb0 tb' outs h4 h5 n p o hn ho⟩

/-! ### The NAT -/

/-- The same for the NAT and the specification of C43, with the bound on the number of flows
that C43 needs. -/
theorem C71_nat_partial (l : Layout) (hl : Placed l 16) (mem : Mem) (exp : Nat) (c : Nf.NatNf.Config) (ps : List Packet)
    (hea : c.externalAddr < 2 ^ 32) (hsp : c.startPort < 65536) (hsize : l.size ≤ 65536)
    (hm : MonoFrom 0 ps) (hp : ∀ p ∈ ps, p.time < timeMax ∧ p.device < 2) (port0 : Flow → Nat) :
    ∃ s s' outs t, Nf.Low.alloc l mem exp = some s ∧ Nf.Low.run (Nf.Low.NatNf.handle l c) s ps = some (s', outs) ∧
      NatSpec.Run (natConfig c l.size exp) ⟨[], port0⟩ ps outs t := by
  obtain ⟨tb, s, h1, h2, h3⟩ := LowProofs.flow_alloc hl mem exp
  obtain ⟨tb0, tb', outs, t, h4, h5, h6⟩ := C43_nat_refines_spec_partial l.size exp c ps hea hsp hsize hm hp port0
  have : tb0 = tb := by
    have h4' : Nf.Table.alloc Flow.zero l.size exp = some tb0 := h4
    rw [h1] at h4'; cases h4'; rfl
  subst this
  rw [Nf.Low.nat_run_eq] at h5
  obtain ⟨s', h7, _⟩ := Nf.Low.run_sim (R := Nf.Low.Sim Nf.Low.FlowOk Nf.Low.flowBytes l) (hs := Nf.Low.NatNf.handle l c)
    (fun r h => Nf.Low.nat_sim (hl.fits (by omega)) hl.1 r h) ps h3 h5
  exact ⟨s, s', outs, t, h2, h7, h6⟩

/-! ### The policer -/

namespace LowProofs

theorem policer_init_sim {l : Layout} (hl : Placed l 4) (mem : Mem) (c : Nf.Policer.Config) (hr : 0 < c.rate)
    (hb : 0 < c.burst) :
    ∃ t s, Nf.Policer.init c l.size = some t ∧ Nf.Low.Policer.init l mem c = some s ∧ Nf.Low.PolicerSim l s t := by
  obtain ⟨tb, h1, _⟩ := Nf.inv_alloc 0 l.size (1000000000 * c.burst % 2 ^ 64 / c.rate)
  obtain ⟨s, h2, h3⟩ := Nf.Low.sim_alloc (zero := 0) (V := Nf.Low.V32) (enc := Nf.Low.enc4)
    (by simp [Nf.Low.V32]) (by rw [hl.1]; rfl) hl.size mem _ h1
  refine ⟨⟨tb, List.replicate l.size ⟨0, 0⟩⟩, ⟨s, List.replicate l.size ⟨0, 0⟩⟩, ?_, ?_, h3, rfl⟩
  · unfold Nf.Policer.init; rw [if_neg (by omega), h1]; rfl
  · unfold Nf.Low.Policer.init; rw [if_neg (by omega), h2]; rfl

end LowProofs

/-- The policer on bytes: it never accesses memory out of bounds; packets are dropped or sent
unmodified to the other device, IPv4 packets not from the WAN are sent, other traffic is not. -/
theorem C71_policer (l : Layout) (hl : Placed l 4) (mem : Mem) (c : Nf.Policer.Config) (hr : 0 < c.rate) (hb : 0 < c.burst)
    (ps : List Packet) (hm : MonoFrom 0 ps) (hp : ∀ p ∈ ps, p.time < timeMax ∧ p.device < 2) :
    ∃ s s' outs, Nf.Low.Policer.init l mem c = some s ∧ Nf.Low.run (Nf.Low.Policer.handle l c) s ps = some (s', outs) ∧
      (∀ b ∈ s'.buckets, b.size ≤ c.burst) ∧
      List.Forall₂ (fun p o => (o = [] ∨ o = [Out.transmit p (1 - p.device) false]) ∧ (¬ isIpv4 p → o = []) ∧
        (isIpv4 p → p.device ≠ c.wanDevice → o ≠ [])) ps outs := by
  obtain ⟨t, s, h1, h2, h3⟩ := LowProofs.policer_init_sim hl mem c hr hb
  obtain ⟨t', outs, h4, h5, h6⟩ := C45_buckets_and_forwarding c l.size ps t h1 hm hp
  rw [Nf.Low.policer_run_eq] at h4
  obtain ⟨s', h7, h8⟩ := Nf.Low.run_sim (R := Nf.Low.PolicerSim l) (hs := Nf.Low.Policer.handle l c)
    (fun r h => Nf.Low.policer_sim (hl.fits (by omega)) hl.1 r h) ps h3 h4
  exact ⟨s, s', outs, h2, h7, by rw [h8.buckets]; exact h5, h6⟩

/-- ... and what it forwards to one address within a time span `T` obeys the limit, when the
rate divides the burst and the expiration time does not wrap (as in C45). -/
theorem C71_policer_rate_partial (l : Layout) (hl : Placed l 4) (mem : Mem) (c : Nf.Policer.Config)
    (hdvd : c.rate ∣ c.burst) (hexp : 1000000000 * c.burst < 2 ^ 64)
    (before window : List Packet) (s0 s1 s2 : Nf.Low.Policer.State) (outs1 outs2 : List (List Out)) (a t0 T : Nat)
    (hm : MonoFrom 0 (before ++ window)) (hp : ∀ p ∈ before ++ window, p.time < timeMax ∧ p.device < 2)
    (hT : ∀ p ∈ window, t0 ≤ p.time ∧ p.time ≤ t0 + T)
    (hi : Nf.Low.Policer.init l mem c = some s0) (h1 : Nf.Low.run (Nf.Low.Policer.handle l c) s0 before = some (s1, outs1))
    (h2 : Nf.Low.run (Nf.Low.Policer.handle l c) s1 window = some (s2, outs2)) :
    policedBytes c.wanDevice a window outs2 ≤ c.burst + c.rate * T := by
  have hrb : 0 < c.rate ∧ 0 < c.burst := by
    unfold Nf.Low.Policer.init at hi
    split at hi
    · cases hi
    · omega
  obtain ⟨t, s, g1, g2, g3⟩ := LowProofs.policer_init_sim hl mem c hrb.1 hrb.2
  have : s = s0 := by rw [g2] at hi; cases hi; rfl
  subst this
  obtain ⟨t1, t2, o1, o2, k1, k2⟩ : ∃ t1 t2 o1 o2, Nf.Policer.run c t before = some (t1, o1) ∧
      Nf.Policer.run c t1 window = some (t2, o2) := by
    obtain ⟨t', outs, h4, _⟩ := C45_buckets_and_forwarding c l.size (before ++ window) t g1 hm hp
    have split_run : ∀ (xs ys : List Packet) (u : Nf.Policer.State) (u' : Nf.Policer.State) (os : List (List Out)),
        Nf.Policer.run c u (xs ++ ys) = some (u', os) →
        ∃ v v' o1 o2, Nf.Policer.run c u xs = some (v, o1) ∧ Nf.Policer.run c v ys = some (v', o2) := by
      intro xs
      induction xs with
      | nil => intro ys u u' os h; exact ⟨u, u', [], os, rfl, h⟩
      | cons x xs ih =>
        intro ys u u' os h
        simp only [List.cons_append, Nf.Policer.run] at h
        cases hx : Nf.Policer.handle c u x with
        | none => simp [hx] at h
        | some y =>
          simp only [hx, Option.bind_eq_bind, Option.bind_some] at h
          cases hy : Nf.Policer.run c y.1 (xs ++ ys) with
          | none => simp [hy] at h
          | some z =>
            obtain ⟨v, v', o1, o2, q1, q2⟩ := ih ys y.1 z.1 z.2 hy
            exact ⟨v, v', y.2 :: o1, o2, by simp [Nf.Policer.run, hx, q1], q2⟩
    obtain ⟨v, v', o1, o2, q1, q2⟩ := split_run before window t t' outs h4
    exact ⟨v, v', o1, o2, q1, q2⟩
  have k1' := k1
  have k2' := k2
  rw [Nf.Low.policer_run_eq] at k1' k2'
  obtain ⟨s1', e1, r1⟩ := Nf.Low.run_sim (R := Nf.Low.PolicerSim l) (hs := Nf.Low.Policer.handle l c)
    (fun r h => Nf.Low.policer_sim (hl.fits (by omega)) hl.1 r h) before g3 k1'
  rw [h1] at e1
  simp only [Option.some.injEq, Prod.mk.injEq] at e1
  obtain ⟨rfl, rfl⟩ := e1
  obtain ⟨s2', e2, r2⟩ := Nf.Low.run_sim (R := Nf.Low.PolicerSim l) (hs := Nf.Low.Policer.handle l c)
    (fun r h => Nf.Low.policer_sim (hl.fits (by omega)) hl.1 r h) window r1 k2'
  rw [h2] at e2
  simp only [Option.some.injEq, Prod.mk.injEq] at e2
  obtain ⟨rfl, rfl⟩ := e2
  exact C45_rate_divides_burst_partial c l.size hdvd hexp before window t t1 t2 outs1 outs2 a t0 T hm hp hT g1 k1 k2

/-! ### The bridge -/

/-- The bridge on bytes obeys the specification of C46. -/
theorem C71_bridge (l : Layout) (hl : Placed l 6) (mem : Mem) (c : BridgeSpec.Config) (hc : c.size = l.size) (bid : Nat)
    (ps : List Packet) (h2 : 2 ≤ c.devices) (hm : MonoFrom 0 ps)
    (hp : ∀ p ∈ ps, p.time < timeMax ∧ p.device < c.devices) :
    ∃ s s' outs t, Nf.Low.Bridge.init l mem c.devices bid c.exp c.updateTime = some s ∧
      Nf.Low.run (Nf.Low.Bridge.handle l) s ps = some (s', outs) ∧ BridgeSpec.Run c (bridgeStart c) ps outs t := by
  obtain ⟨t0, t', outs, t, h3, h4, h5⟩ := C46_bridge_refines_spec c bid ps h2 hm hp
  rw [Nf.Low.bridge_run_eq] at h4
  unfold Nf.Bridge.init at h3
  rw [if_neg (by omega)] at h3
  cases ha : Nf.Table.alloc 0 c.size c.exp with
  | none => simp [ha] at h3
  | some tb =>
    simp [ha] at h3
    subst h3
    obtain ⟨s, g1, g2⟩ := Nf.Low.sim_alloc (zero := 0) (V := Nf.Low.V48) (enc := Nf.Low.enc6) (l := l)
      (by simp [Nf.Low.V48]) (by rw [hl.1]; rfl) hl.size mem _ (by rw [← hc]; exact ha)
    obtain ⟨s', h6, _⟩ := Nf.Low.run_sim (R := Nf.Low.BridgeSim l) (hs := Nf.Low.Bridge.handle l)
      (fun r h => Nf.Low.bridge_sim (hl.fits (by omega)) hl.1 r h) ps
      (s := ⟨Nf.Bridge.stpInit c.devices bid c.updateTime, s, List.replicate l.size 0⟩)
      (t := ⟨Nf.Bridge.stpInit c.devices bid c.updateTime, tb, List.replicate c.size 0⟩) ⟨rfl, g2, by simp [hc]⟩ h4
    exact ⟨_, s', outs, t, by unfold Nf.Low.Bridge.init; rw [if_neg (by omega)]; simp [g1], h6, h5⟩

/-! ### The load balancer -/

/-- C71, initialization of the load balancer: it starts only if `Nf.Maglev.init` may (`C47_init_checked`). -/
theorem C71_maglev_init_checked (l : Layout) (mem : Mem) (n fexp bexp h : Nat) (s : Nf.Low.Maglev.Balancer) (hi : Nf.Low.Maglev.init l mem n fexp bexp h = some s) :
    2 ≤ n ∧ n - 1 < h ∧ h < 40000 := by
  unfold Nf.Low.Maglev.init at hi
  split at hi
  · cases hi
  split at hi
  · cases hi
  split at hi
  · cases hi
  omega

/-- The balancer on bytes, with the hash of the bytes of the flow, sends client packets only
to live backends, as in C47 and under its conditions. -/
theorem C71_maglev_partial (l : Layout) (hl : Placed l 16) (mem : Mem) (n fexp bexp h : Nat) (hn : 2 ≤ n) (hcap : n - 1 < h)
    (hh : h < 40000) (hs : ∀ s, 1 ≤ s → s ≤ n - 1 → Nat.Coprime h s) :
    ∃ s0 choose, Nf.Low.Maglev.init l mem n fexp bexp h = some s0 ∧
      ∀ ps : List Packet, (∀ p ∈ ps, p.time < timeMax) →
        ∃ s outs, Nf.Low.run (Nf.Low.Maglev.handle l n) s0 ps = some (s, outs) ∧
          BalanceOk n bexp choose (fun _ => none) ps outs := by
  obtain ⟨t0, choose, h1, h2⟩ := C47_live_backend_partial n l.size fexp bexp h hn hcap hh hs Nf.Low.flowHash
  obtain ⟨tb, s, g1, g2, g3⟩ := LowProofs.flow_alloc hl mem fexp
  unfold Nf.Maglev.init at h1
  rw [if_neg (by omega), if_neg (by omega), if_neg (by omega)] at h1
  unfold Nf.Maglev.alloc at h1
  cases hq : IndexPool.alloc (n - 1) bexp with
  | none => simp [g1, hq] at h1
  | some q =>
    cases hc : Cht.alloc h (n - 1) with
    | none => simp [g1, hq, hc] at h1
    | some cht =>
      simp [g1, hq, hc] at h1
      subst h1
      refine ⟨⟨s, List.replicate l.size 0, q, cht⟩, choose, ?_, ?_⟩
      · unfold Nf.Low.Maglev.init
        rw [if_neg (by omega), if_neg (by omega), if_neg (by omega)]
        simp [Nf.Low.Maglev.alloc, g2, hq, hc]
      · intro ps hp
        obtain ⟨t, outs, k1, k2⟩ := h2 ps hp
        rw [Nf.Low.maglev_run_eq] at k1
        obtain ⟨s', h6, _⟩ := Nf.Low.run_sim (R := Nf.Low.MaglevSim l) (hs := Nf.Low.Maglev.handle l n)
          (fun r h => Nf.Low.maglev_sim (hl.fits (by omega)) hl.1 r h) ps
          (s := ⟨s, List.replicate l.size 0, q, cht⟩) (t := ⟨tb, List.replicate l.size 0, q, cht⟩) ⟨g3, rfl, rfl, rfl⟩ k1
        exact ⟨s', outs, h6, k2⟩

namespace LowSpec

/-- Somewhere to put the keys of a balancer with 4 flows. -/
def place : Layout := ⟨8192, 16, 4, 0, 4096⟩

/-- The devices the balancer sends to, in order. -/
def devicesUsed (n : Nat) (ps : List Packet) : Option (List Nat) := do
  let s ← Nf.Low.Maglev.init place (fun _ => 0) n 100 100 5
  let r ← Nf.Low.run (Nf.Low.Maglev.handle place n) s ps
  some ((r.2.flatMap id).filterMap fun o => match o with | .transmit _ d _ => some d | _ => none)

end LowSpec

/-- Stickiness is false with the hash of the code, not only with some hash (C47): with two
live backends, two packets of the same flow, one right after the other, go to different
backends. -/
theorem C71_maglev_not_sticky : Placed place 16 ∧
    flow (samplePacket 1 2 3 5 2 2) = flow (samplePacket 1 2 3 5 2 3) ∧
    devicesUsed 3 [samplePacket 9 9 9 9 0 1, samplePacket 9 9 9 9 1 1, samplePacket 1 2 3 5 2 2, samplePacket 1 2 3 5 2 3]
      = some [1, 0] :=
  ⟨by simp [Placed, place], rfl, by decide +kernel⟩

/-- Non-vacuity: table heights that the balancer accepts. -/
example : (2 : Nat) ≤ 3 ∧ 3 - 1 < 5 ∧ 5 < 40000 ∧ ∀ s, 1 ≤ s → s ≤ 3 - 1 → Nat.Coprime 5 s := by
  refine ⟨by omega, by omega, by omega, fun s h1 h2 => ?_⟩
  rcases (by omega : s = 1 ∨ s = 2) with rfl | rfl <;> decide

/-! ### The bytes of the keys -/

/-- The bytes of the flow that the firewall gives to the map, whatever was in the local
variable before: they are the same for two packets exactly if the flows are, and the rest of
the memory is unchanged. -/
theorem C71_key_bytes (l : Layout) (s s' : Nf.Low.State) (p q : Packet) :
    ((∀ j < 16, (Nf.Low.putFlow l s (flow p)).mem (l.loc + j) = (Nf.Low.putFlow l s' (flow q)).mem (l.loc + j)) ↔
      flow p = flow q) ∧
    ∀ a, a < l.loc ∨ l.loc + 16 ≤ a → (Nf.Low.putFlow l s (flow p)).mem a = s.mem a := by
  have ok : ∀ p : Packet, Nf.Low.FlowOk (flow p) := by
    intro p
    have b : ∀ i, PacketSpec.byte p i < 256 := fun i => (p.data i).toNat_lt
    have w : ∀ i, PacketSpec.word p i < 65536 := by
      intro i; have := b i; have := b (i + 1); unfold PacketSpec.word; omega
    have d : ∀ i, PacketSpec.dword p i < 2 ^ 32 := by
      intro i; have := b i; have := b (i + 1); have := b (i + 2); have := b (i + 3); unfold PacketSpec.dword; omega
    exact ⟨d _, d _, w _, w _, b _⟩
  refine ⟨⟨fun h => ?_, fun h j hj => ?_⟩, fun a ha => ?_⟩
  · refine Nf.Low.flow_enc.inj _ _ (ok p) (ok q) ?_
    rw [← Nf.Low.putFlow_bytes l s, ← Nf.Low.putFlow_bytes l s']
    exact List.map_congr_left fun j hj => h j (List.mem_range.mp hj)
  · simp only [Nf.Low.putFlow, Nf.Low.store, h]
    rw [if_pos (by omega), if_pos (by omega)]
  · simp only [Nf.Low.putFlow, Nf.Low.store]
    rw [if_neg (by omega)]

/-! ### What is written -/

/-- Allocating its state and handling any packets, no network function changes a byte outside
its array of keys, the packet buffer and its local variable, even if these overlap. -/
theorem C71_writes (l : Layout) (mem : Mem) (ps : List Packet) (outs : List (List Out)) (a : Nat)
    (hp : a < l.pkt ∨ l.pkt + 2048 ≤ a) (hv : a < l.loc ∨ l.loc + 16 ≤ a)
    (hk : a < l.keys ∨ l.keys + l.ks * l.size ≤ a) :
    (∀ exp ext s s', Nf.Low.alloc l mem exp = some s → Nf.Low.run (Nf.Low.Firewall.handle l ext) s ps = some (s', outs) →
      s'.mem a = mem a) ∧
    (∀ exp c s s', Nf.Low.alloc l mem exp = some s → Nf.Low.run (Nf.Low.NatNf.handle l c) s ps = some (s', outs) →
      s'.mem a = mem a) ∧
    (∀ c s s', Nf.Low.Policer.init l mem c = some s → Nf.Low.run (Nf.Low.Policer.handle l c) s ps = some (s', outs) →
      s'.table.mem a = mem a) ∧
    (∀ n bid exp upd s s', Nf.Low.Bridge.init l mem n bid exp upd = some s →
      Nf.Low.run (Nf.Low.Bridge.handle l) s ps = some (s', outs) → s'.table.mem a = mem a) ∧
    (∀ n fexp bexp h s s', Nf.Low.Maglev.init l mem n fexp bexp h = some s →
      Nf.Low.run (Nf.Low.Maglev.handle l n) s ps = some (s', outs) → s'.flows.mem a = mem a) := by
  refine ⟨fun exp ext s s' h1 h2 => ?_, fun exp c s s' h1 h2 => ?_, fun c s s' h1 h2 => ?_,
    fun n bid exp upd s s' h1 h2 => ?_, fun n fexp bexp h s s' h1 h2 => ?_⟩
  · exact ((Nf.Low.alloc_frame h1).trans (Nf.Low.run_frame (get := Nf.Low.State.mem) Nf.Low.firewall_frame ps h2)) a hp hv hk
  · exact ((Nf.Low.alloc_frame h1).trans (Nf.Low.run_frame (get := Nf.Low.State.mem) Nf.Low.nat_frame ps h2)) a hp hv hk
  · unfold Nf.Low.Policer.init at h1
    split at h1
    · cases h1
    · simp only [Option.bind_eq_bind, Option.bind_eq_some_iff] at h1
      obtain ⟨tb, h1, e⟩ := h1
      cases e
      exact ((Nf.Low.alloc_frame h1).trans
        (Nf.Low.run_frame (get := fun s => s.table.mem) Nf.Low.policer_frame ps h2)) a hp hv hk
  · unfold Nf.Low.Bridge.init at h1
    split at h1
    · cases h1
    · simp only [Option.bind_eq_bind, Option.bind_eq_some_iff] at h1
      obtain ⟨tb, h1, e⟩ := h1
      cases e
      exact ((Nf.Low.alloc_frame h1).trans
        (Nf.Low.run_frame (get := fun s => s.table.mem) Nf.Low.bridge_frame ps h2)) a hp hv hk
  · unfold Nf.Low.Maglev.init at h1
    split at h1
    · cases h1
    split at h1
    · cases h1
    split at h1
    · cases h1
    unfold Nf.Low.Maglev.alloc at h1
    simp only [Option.bind_eq_bind, Option.bind_eq_some_iff] at h1
    obtain ⟨tb, h1, _, _, _, _, e⟩ := h1
    cases e
    exact ((Nf.Low.alloc_frame h1).trans
      (Nf.Low.run_frame (get := fun s => s.flows.mem) Nf.Low.maglev_frame ps h2)) a hp hv hk

/-- Non-vacuity: the firewall on a packet out, its reply, another packet in, and a late reply. -/
example : Placed place 16 ∧
    MonoFrom 0 [samplePacket 1 2 3 4 0 5, samplePacket 2 1 4 3 1 9, samplePacket 2 1 4 9 1 9, samplePacket 2 1 4 3 1 99] ∧
    ((Nf.Low.alloc place (fun _ => 77) 10).bind fun s => (Nf.Low.run (Nf.Low.Firewall.handle place 1) s
      [samplePacket 1 2 3 4 0 5, samplePacket 2 1 4 3 1 9, samplePacket 2 1 4 9 1 9, samplePacket 2 1 4 3 1 99]).map
        fun r => (r.2.map List.length, r.1.mem 8191, r.1.mem 8192, r.1.mem 8205)) = some ([1, 1, 0, 0], 77, 1, 0) :=
  ⟨by simp [Placed, place], by simp [MonoFrom, samplePacket], by decide +kernel⟩

/-- Non-vacuity: the policer, where the rate divides the burst, on packets to one address. -/
example : Placed ⟨8192, 4, 4, 0, 4096⟩ 4 ∧
    ((Nf.Low.Policer.init ⟨8192, 4, 4, 0, 4096⟩ (fun _ => 77) { wanDevice := 1, rate := 1, burst := 100 }).bind fun s =>
      (Nf.Low.run (Nf.Low.Policer.handle ⟨8192, 4, 4, 0, 4096⟩ { wanDevice := 1, rate := 1, burst := 100 }) s
        [samplePacket 1 2 3 4 1 5, samplePacket 3 2 4 3 1 6, samplePacket 2 1 4 9 1 9, samplePacket 2 2 4 3 1 99]).map
        fun r => r.2.map List.length) = some [1, 0, 1, 1] :=
  ⟨by simp [Placed], by decide +kernel⟩

/-- Non-vacuity: the bridge floods, learns and forwards. -/
example : Placed ⟨8192, 6, 4, 0, 4096⟩ 6 ∧
    ((Nf.Low.Bridge.init ⟨8192, 6, 4, 0, 4096⟩ (fun _ => 77) 3 7 10 1000).bind fun s =>
      (Nf.Low.run (Nf.Low.Bridge.handle ⟨8192, 6, 4, 0, 4096⟩) s
        [frame 4 2 0 1, frame 2 4 1 2, frame 4 6 1 3, frame 8 5 2 4, frame 5 8 1 5]).map
        fun r => r.2.map fun os => os.map (sentTo 3)) = some [[[1, 2]], [[0]], [], [[0, 1]], [[0, 2]]] :=
  ⟨by simp [Placed], by decide +kernel⟩

end Verif.Props
