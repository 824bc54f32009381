/- Property C73: networks of bridges. -/
import Verif.Props.BridgeNetDelivery

set_option autoImplicit false

namespace Verif.Props
open Verif.Nf.BridgeNet
open Verif.BridgeNetSpec

/-- A bridge can handle any frame that arrives, in any network, at any time, whatever has
happened before: it does not access memory out of bounds. -/
theorem C73_always_handles (net : Net) (w : Wired net) (s : St) (h : Reachable net s) (f : Flying) (hf : f ∈ s.wire)
    (time : Nat) (ht : ∀ b, s.clock b ≤ time) (ht2 : time < 2 ^ 64 - 1) :
    ∃ s', Step net s s' ∧ (∀ b, s'.clock b ≤ time) ∧ s'.injected = s.injected ∧
      ∃ made, s'.handled = s.handled ++ [(f, made)] :=
  Networked.progress w h hf ht ht2

/-- In a network without loops every bridge handles a frame that a host hands in at most
once, be it as such or as the message made of it; and at most one copy leaves at each
device. -/
theorem C73_once (net : Net) (w : Wired net) (lf : LoopFree net) (s : St) (h : Reachable net s) :
    (s.handled.map fun g => (g.1.id, g.1.route.head?.map Prod.fst)).Nodup ∧
    (s.left.map fun g => (g.id, g.route.head?)).Nodup := by
  obtain ⟨t, he, _⟩ := Networked.exec_of_reachable w h
  have tr := Networked.traced w he
  have hne : ∀ r, Route net r → ∃ b d r', r = (b, d) :: r' := by
    intro r h
    cases h with
    | first p => exact ⟨p.1, p.2, [], rfl⟩
    | next o e _ _ _ => exact ⟨e.1, e.2, _, rfl⟩
  constructor
  · refine Networked.nodup_map_of_key (fun g => Networked.key g.1) _ ?_ ?_
    · have := tr.nodup
      rw [List.map_append, List.nodup_append, List.map_map] at this
      exact this.1
    · intro g hg g' hg' heq
      simp only [Prod.mk.injEq] at heq
      obtain ⟨hid, hb⟩ := heq
      obtain ⟨b, d, r, h1⟩ := hne _ (tr.handled g hg).1
      obtain ⟨b', d', r', h2⟩ := hne _ (tr.handled g' hg').1
      rw [h1, h2] at hb
      simp only [List.head?_cons, Option.map_some, Option.some.injEq] at hb
      subst hb
      obtain ⟨rfl, rfl⟩ := Networked.once w lf tr hg hg' hid h1 h2
      simp only [Networked.key, hid, h1, h2]
  · refine Networked.nodup_map_of_key Networked.key _ tr.leftNodup ?_
    intro g hg g' hg' heq
    simp only [Prod.mk.injEq] at heq
    obtain ⟨hid, hp⟩ := heq
    obtain ⟨b, o, d, r, h1, _, _, k, h2, h3, h4⟩ := tr.left g hg
    obtain ⟨b', o', d', r', h1', _, _, k', h2', h3', h4'⟩ := tr.left g' hg'
    rw [h1, h1'] at hp
    simp only [List.head?_cons, Option.some.injEq, Prod.mk.injEq] at hp
    obtain ⟨rfl, rfl⟩ := hp
    obtain ⟨rfl, rfl⟩ := Networked.once w lf tr h2 h2' (by rw [h3, h3', hid]) h4 h4'
    simp only [Networked.key, hid, h1, h1']

/-- In a network without loops all frames die out: there are no more steps of bridges than
frames handed in, times bridges. -/
theorem C73_dies_out (net : Net) (w : Wired net) (lf : LoopFree net) (s : St) (h : Reachable net s) :
    s.handled.length ≤ s.injected.length * net.bridges := by
  obtain ⟨t, he, hb⟩ := Networked.exec_of_reachable w h
  have tr := Networked.traced w he
  have hn := (C73_once net w lf s h).1
  have hsub := hn.subperm (l₂ := (List.range s.injected.length ×ˢ (List.range net.bridges).map some)) ?_
  · have := hsub.length_le
    rw [List.length_product] at this
    simpa using this
  · intro k hk
    obtain ⟨g, hg, rfl⟩ := List.mem_map.1 hk
    obtain ⟨_, e, h1, _⟩ := tr.handled g hg
    obtain ⟨b, d, r, h2, h3⟩ := Networked.handled_bridge he g hg
    simp only [h2, List.head?_cons, Option.map_some]
    refine List.mem_product.2 ⟨List.mem_range.2 (List.getElem?_eq_some_iff.1 h1).1, ?_⟩
    exact List.mem_map.2 ⟨b, List.mem_range.2 h3, rfl⟩

/-- If hosts do not move and use addresses of their own, then the device that a bridge has
recorded for an address is one at which frames from that host arrive: there is a way from
the host to it. -/
theorem C73_learned (net : Net) (w : Wired net) (home : Nat → Option Port) (s : St) (h : Reachable net s)
    (hosts : ∀ e ∈ s.injected, BridgeSpec.group (src e.2) ∨ home (src e.2) = some e.1)
    (devs : ∀ b < net.bridges, ∀ d < net.devices b, home (number (net.mac b d)) = none)
    (b : Nat) (hb : b < net.bridges) (a index d : Nat) (q : Port) (hm : (s.bridge b).table.map.get a = some index)
    (hd : (s.bridge b).devices[index]? = some d) (hq : home a = some q) :
    ∃ r, Route net ((b, d) :: r) ∧ ((b, d) :: r).getLast? = some q := by
  obtain ⟨t, he, hbas⟩ := Networked.exec_of_reachable w h
  have rel := hbas.rel b hb
  obtain ⟨v, _, hl⟩ := Nf.look_of_get rel.rel.inv hm
  obtain ⟨d', h1, h2⟩ := rel.ports _ index v hl
  rw [hd] at h1
  cases h1
  exact (Networked.placed w he hosts devs).port b hb a d q h2 hq

/-- In a network without loops, where hosts do not move, use addresses of their own, and send
no spanning tree messages: when nothing is under way any more, a frame has reached its
destination, unmodified, unless a bridge on its way made a spanning tree message of it. A
frame for a group has reached all hosts. Without the exception the claim is false
(`C73_frame_lost`). -/
theorem C73_delivers_partial (net : Net) (w : Wired net) (lf : LoopFree net) (home : Nat → Option Port) (s : St)
    (h : Reachable net s)
    (hosts : ∀ e ∈ s.injected, dst e.2 ≠ BridgeSpec.stpAddr ∧ (BridgeSpec.group (src e.2) ∨ home (src e.2) = some e.1))
    (groups : ∀ a, BridgeSpec.group a → home a = none)
    (devs : ∀ b < net.bridges, ∀ d < net.devices b, home (number (net.mac b d)) = none)
    (quiet : s.wire = []) (i : Nat) (p q : Port) (f : Frame) (hi : s.injected[i]? = some (p, f))
    (hq : home (dst f) = some q ∨ BridgeSpec.group (dst f)) (hc : Connected net p q) (hout : net.link q = none) :
    (∃ g ∈ s.handled, g.1.id = i ∧ g.2 = true) ∨
    ∃ g ∈ s.left, g.id = i ∧ g.route.head? = some q ∧ Same g.frame f := by
  obtain ⟨t, he, _⟩ := Networked.exec_of_reachable w h
  obtain ⟨d, r, h1, h2, h3, h4⟩ := hc
  have hu := Networked.under_way (qo := q.2) w lf he hosts devs hi
    (by rcases hq with hq | hq
        · exact .inr hq
        · exact .inl (groups _ hq))
    (by intro hn
        rcases hq with hq | hq
        · rw [hn] at hq; cases hq
        · exact hq) h1 h2 h3 h4 hout
  rcases hu with hu | hu | ⟨g, hg, _⟩
  · exact .inl hu
  · exact .inr hu
  · rw [quiet] at hg; cases hg

/-- Under the assumptions of `C73_delivers_partial`, at most one frame is lost per bridge and
time between two messages: here `lost` are frames that have not arrived although nothing is
under way any more. The time of the bridge is such that its sum with the time between two
messages does not overflow. -/
theorem C73_losses_bounded (net : Net) (w : Wired net) (lf : LoopFree net) (home : Nat → Option Port) (s : St)
    (h : Reachable net s)
    (hosts : ∀ e ∈ s.injected, dst e.2 ≠ BridgeSpec.stpAddr ∧ (BridgeSpec.group (src e.2) ∨ home (src e.2) = some e.1))
    (groups : ∀ a, BridgeSpec.group a → home a = none)
    (devs : ∀ b < net.bridges, ∀ d < net.devices b, home (number (net.mac b d)) = none)
    (times : ∀ b < net.bridges, s.clock b + (net.config b).updateTime < 2 ^ 64)
    (quiet : s.wire = []) (lost : List Nat) (hnd : lost.Nodup)
    (hlost : ∀ i ∈ lost, ∃ p q f, s.injected[i]? = some (p, f) ∧ (home (dst f) = some q ∨ BridgeSpec.group (dst f)) ∧
      Connected net p q ∧ net.link q = none ∧ ¬ ∃ g ∈ s.left, g.id = i ∧ g.route.head? = some q ∧ Same g.frame f) :
    lost.length ≤ ((List.range net.bridges).map fun b => s.clock b / ((net.config b).updateTime + 1)).sum := by
  obtain ⟨t, he, _⟩ := Networked.exec_of_reachable w h
  have h1 : lost.length ≤ (s.handled.filter fun g => g.2).length := by
    have := hnd.subperm (l₂ := (s.handled.filter fun g => g.2).map fun g => g.1.id) ?_
    · simpa using this.length_le
    · intro i hi
      obtain ⟨p, q, f, h1, h2, h3, h4, h5⟩ := hlost i hi
      rcases C73_delivers_partial net w lf home s h hosts groups devs quiet i p q f h1 h2 h3 h4 with ⟨g, hg, rfl, hm⟩ | h6
      · exact List.mem_map.2 ⟨g, List.mem_filter.2 ⟨hg, hm⟩, rfl⟩
      · exact absurd h6 h5
  refine h1.trans ((Networked.length_le_sum (fun g => g.1.route.head?.map Prod.fst) net.bridges _ ?_).trans ?_)
  · intro g hg
    obtain ⟨b, d, r, h2, h3⟩ := Networked.handled_bridge he g (List.mem_filter.1 hg).1
    exact ⟨b, h3, by rw [h2]; rfl⟩
  · apply List.sum_le_sum
    intro b hb
    have h2 := Networked.messages he b (times b (List.mem_range.1 hb))
    rw [List.countP_filter]
    refine (Nat.le_div_iff_mul_le (Nat.succ_pos _)).2 ?_
    refine Nat.le_trans (Nat.mul_le_mul_right _ (Nat.le_of_eq ?_)) (h2.1.trans h2.2)
    apply List.countP_congr
    intro g _
    simp [Networked.madeAt, and_comm]

/-- Unless a host sends spanning tree messages, no bridge ever learns of another one, in any
network and whatever happens: each takes itself for the root, and blocks none of its
devices. The messages that the bridges send are not recognized, because the runtime
overwrites their destination (main.c:23). -/
theorem C73_spanning_tree_inert (net : Net) (w : Wired net) (s : St) (h : Reachable net s)
    (hosts : ∀ e ∈ s.injected, dst e.2 ≠ BridgeSpec.stpAddr) :
    ∀ b < net.bridges, (s.bridge b).stp.root = (net.config b).bid ∧ (s.bridge b).stp.rootCost = 0 ∧
      (s.bridge b).stp.disabled = List.replicate (net.devices b) false := by
  obtain ⟨t, he, _⟩ := Networked.exec_of_reachable w h
  exact (Networked.inert w he hosts).stp

open Classical in
/-- If every bridge is connected to others by `k + 2` wires or more, so that there are loops,
frames for a group stay under way for ever, in every execution; and each time a bridge
handles one (or the message made of it) there are `k` more. -/
theorem C73_storm (net : Net) (w : Wired net) (k : Nat) (hl : ∀ b < net.bridges, Linked net b (k + 2)) (s : St)
    (h : Reachable net s) (hosts : ∀ e ∈ s.injected, dst e.2 ≠ BridgeSpec.stpAddr ∧ ¬ Endpoint net (src e.2))
    (devs : ∀ b < net.bridges, ∀ d < net.devices b, ¬ Endpoint net (number (net.mac b d))) :
    s.injected.countP (fun e => decide (Astray net e.2)) + k * s.handled.countP (fun g => decide (Astray net g.1.frame)) ≤
      s.wire.countP (fun g => decide (Astray net g.frame)) := by
  obtain ⟨t, he, _⟩ := Networked.exec_of_reachable w h
  exact Networked.storm w he k hl hosts devs

/-- The claim that frames die out is false with loops: one frame for a group keeps the
bridges busy for ever. -/
theorem C73_circulates (net : Net) (w : Wired net) (hl : ∀ b < net.bridges, Linked net b 2)
    (devs : ∀ b < net.bridges, ∀ d < net.devices b, ¬ Endpoint net (number (net.mac b d)))
    (b d : Nat) (hb : b < net.bridges) (hd : d < net.devices b) (hout : net.link (b, d) = none) (f : Frame)
    (hf : 60 ≤ f.length) (hdst : BridgeSpec.group (dst f)) (hstp : dst f ≠ BridgeSpec.stpAddr)
    (hsrc : ¬ Endpoint net (src f)) (k : Nat) :
    ∃ s, Reachable net s ∧ s.injected = [((b, d), f)] ∧ s.handled.length = k ∧ s.wire ≠ [] := by
  have hne : ∀ s, Reachable net s → s.injected = [((b, d), f)] → s.wire ≠ [] := by
    intro s h hi hw
    have := C73_storm net w 0 hl s h (by rw [hi]; simp [hstp, hsrc]) devs
    have ha : Astray net f := .inl ⟨hdst, hstp⟩
    rw [hi, hw] at this
    simp [ha] at this
  have key : ∃ s, Reachable net s ∧ s.injected = [((b, d), f)] ∧ s.handled.length = k ∧ ∀ b, s.clock b ≤ 0 := by
    induction k with
    | zero =>
      obtain ⟨s, hs⟩ := Networked.start_exists w
      refine ⟨_, .step (.start s hs) (.inject s b d f hb hd hout hf), ?_, ?_, ?_⟩
      · simp [hs.injected]
      · simp [hs.handled]
      · intro x
        show s.clock x ≤ 0
        rw [hs.clock]
    | succ k ih =>
      obtain ⟨s, h1, h2, h3, h4⟩ := ih
      obtain ⟨g, hg⟩ := List.exists_mem_of_ne_nil _ (hne s h1 h2)
      obtain ⟨s', h5, h6, h7, u, h8⟩ := C73_always_handles net w s h1 g hg 0 h4 (by decide)
      exact ⟨s', .step h1 h5, by rw [h7, h2], by rw [h8]; simp [h3], h6⟩
  obtain ⟨s, h1, h2, h3, _⟩ := key
  exact ⟨s, h1, h2, h3, hne s h1 h2⟩

/-- Two bridges with two devices each, connected by one wire: a network without loops. -/
def chainNet : Net :=
  { bridges := 2, devices := fun _ => 2, config := fun b => ⟨b, 1000, 16, 10⟩
    mac := fun b d => [2, UInt8.ofNat b, UInt8.ofNat d, 0, 0, 1]
    link := fun p => if p = (0, 1) then some (1, 0) else if p = (1, 0) then some (0, 1) else none }

/-- Two bridges with four devices each, connected by three wires. -/
def loopNet : Net :=
  { bridges := 2, devices := fun _ => 4, config := fun b => ⟨b, 1000, 16, 10⟩
    mac := fun b d => [2, UInt8.ofNat b, UInt8.ofNat d, 0, 0, 1]
    link := fun p => if p.1 < 2 ∧ p.2 < 3 then some (1 - p.1, p.2) else none }

namespace NetworkExample

theorem chain_wired : Wired chainNet := by
  refine ⟨fun b _ => Nat.le_refl 2, ?_, ?_⟩
  · intro p q h
    simp only [chainNet] at h ⊢
    split at h
    · cases h; subst p; rfl
    · split at h
      · cases h; subst p; rfl
      · cases h
  · intro b o q h
    simp only [chainNet] at h ⊢
    split at h
    · rename_i hp; cases hp; decide
    · split at h
      · rename_i hp; cases hp; decide
      · cases h

theorem chain_route {r : List Port} (h : Route chainNet r) :
    (∃ p, r = [p]) ∨ (∃ d, r = [(1, 0), (0, d)]) ∨ ∃ d, r = [(0, 1), (1, d)] := by
  induction h with
  | first p => exact .inl ⟨p, rfl⟩
  | @next b d r o e _ h2 h3 ih =>
    simp only [chainNet] at h3
    split at h3
    · rename_i hp
      cases hp; cases h3
      rcases ih with ⟨p, h⟩ | ⟨_, h⟩ | ⟨_, h⟩
      · cases h; exact .inr (.inl ⟨d, rfl⟩)
      · cases h
      · cases h; exact absurd rfl h2
    · split at h3
      · rename_i hp
        cases hp; cases h3
        rcases ih with ⟨p, h⟩ | ⟨_, h⟩ | ⟨_, h⟩
        · cases h; exact .inr (.inr ⟨d, rfl⟩)
        · cases h; exact absurd rfl h2
        · cases h
      · cases h3

theorem chain_loopFree : LoopFree chainNet := by
  intro r h
  rcases chain_route h with ⟨p, rfl⟩ | ⟨d, rfl⟩ | ⟨d, rfl⟩ <;> simp

theorem loop_wired : Wired loopNet := by
  refine ⟨fun b _ => (by decide : 2 ≤ 4), ?_, ?_⟩
  · rintro ⟨p1, p2⟩ q h
    simp only [loopNet] at h ⊢
    split at h
    · rename_i hp
      cases h
      rw [if_pos ⟨by omega, hp.2⟩]
      congr 2
      omega
    · cases h
  · intro b o q h
    simp only [loopNet] at h ⊢
    split at h
    · omega
    · cases h

theorem loop_linked (b : Nat) (hb : b < loopNet.bridges) : Linked loopNet b 3 := by
  refine ⟨[0, 1, 2], by decide, rfl, ?_⟩
  intro o ho
  have : o < 3 := by simp at ho; omega
  exact ⟨_, if_pos ⟨hb, this⟩⟩

theorem number_low (a : List UInt8) : number a % 256 = (a.headD 0).toNat % 256 := by
  cases a with
  | nil => simp [number, addr]
  | cons x a =>
    simp only [number, addr, Nat.zero_add, List.getElem?_cons_zero, Option.getD_some, List.headD_cons]
    omega

theorem not_endpoint {net : Net} {a : Nat} (h : a % 256 ≠ 0) : ¬ Endpoint net a := by
  rintro ⟨_, _, d, _, rfl⟩
  rw [number_low] at h
  exact h rfl

theorem loop_devs : ∀ b < loopNet.bridges, ∀ d < loopNet.devices b, ¬ Endpoint loopNet (number (loopNet.mac b d)) := by
  intro b _ d _
  refine not_endpoint ?_
  rw [number_low]
  show (2 : UInt8).toNat % 256 ≠ 0
  decide

/-- A frame from `a` to `b`; only the last bytes of the addresses differ. -/
def hello (a b : UInt8) : Frame :=
  { data := fun x => if x = 0 ∨ x = 6 then 4 else if x = 5 then b else if x = 11 then a else 0, length := 60 }

/-- A frame to all. -/
def toAll : Frame := { data := fun x => if x < 6 then 255 else if x = 6 then 4 else 0, length := 60 }

/-- The hypotheses of the theorems about storms hold for `loopNet`. -/
example (k : Nat) : ∃ s, Reachable loopNet s ∧ s.injected = [((0, 3), toAll)] ∧ s.handled.length = k ∧ s.wire ≠ [] :=
  C73_circulates loopNet loop_wired (fun b hb => by
    obtain ⟨l, h1, h2, h3⟩ := loop_linked b hb
    refine ⟨l.tail, h1.tail, by rw [List.length_tail, h2], fun o ho => h3 o (List.mem_of_mem_tail ho)⟩) loop_devs 0 3
    (by decide) (by decide) rfl toAll (by decide) (by unfold BridgeSpec.group; decide) (by decide)
    (not_endpoint (by decide)) k

theorem fresh_some (b : Nat) : (Nf.Bridge.init 2 b 1000 16 10).isSome = true := rfl

/-- A bridge of `chainNet` after its start. -/
def fresh (b : Nat) : Nf.Bridge.State := (Nf.Bridge.init 2 b 1000 16 10).get (fresh_some b)

def chainStart : St :=
  { bridge := fresh, clock := fun _ => 0, wire := [], injected := [], handled := [], left := [] }

theorem fresh_init (b : Nat) : Nf.Bridge.init 2 b 1000 16 10 = some (fresh b) := by
  unfold fresh
  rw [Option.some_get]

theorem chain_start : Start chainNet chainStart := by
  refine ⟨?_, fun _ => rfl, rfl, rfl, rfl, rfl⟩
  intro b _
  exact fresh_init b

/-- At time 11 a fresh bridge makes a message of any frame. -/
theorem fresh_message (b : Nat) (m : Mem) (l : Nat) : ∃ s m',
    process (chainNet.macs b) 2 (fresh b) { data := m, length := l, time := 11, device := 0 } = some (s, m', [34]) :=
  ⟨_, _, rfl⟩

/-- Where the hosts of the two addresses are. -/
def homes (a : Nat) : Option Port :=
  if a = src (hello 1 2) then some (0, 0) else if a = dst (hello 1 2) then some (1, 1) else none

theorem homes_group (a : Nat) (ha : BridgeSpec.group a) : homes a = none := by
  unfold BridgeSpec.group at ha
  unfold homes
  rw [if_neg (by rintro rfl; exact absurd ha (by decide)), if_neg (by rintro rfl; exact absurd ha (by decide))]

theorem homes_devices (b : Nat) (_ : b < chainNet.bridges) (d : Nat) (_ : d < chainNet.devices b) :
    homes (number (chainNet.mac b d)) = none := by
  have h : number (chainNet.mac b d) % 256 = 2 := by rw [number_low]; rfl
  unfold homes
  rw [if_neg (by intro h'; rw [h'] at h; exact absurd h (by decide)),
    if_neg (by intro h'; rw [h'] at h; exact absurd h (by decide))]

end NetworkExample

/-- A frame of a network without loops, between hosts that do not move, is lost: the first
bridge makes a spanning tree message of it. -/
theorem C73_frame_lost : ∃ (net : Net) (s : St) (home : Nat → Option Port) (p q : Port) (f : Frame),
    Wired net ∧ LoopFree net ∧ Reachable net s ∧
    (∀ e ∈ s.injected, dst e.2 ≠ BridgeSpec.stpAddr ∧ (BridgeSpec.group (src e.2) ∨ home (src e.2) = some e.1)) ∧
    (∀ a, BridgeSpec.group a → home a = none) ∧
    (∀ b < net.bridges, ∀ d < net.devices b, home (number (net.mac b d)) = none) ∧
    s.wire = [] ∧ s.injected = [(p, f)] ∧ home (dst f) = some q ∧ Connected net p q ∧ net.link q = none ∧
    ¬ ∃ g ∈ s.left, g.frame.length = f.length := by
  open NetworkExample in
  obtain ⟨s1, m1, h1⟩ := fresh_message 0 (hello 1 2).data 60
  obtain ⟨s2, m2, h2⟩ := fresh_message 1 m1 60
  refine ⟨chainNet, _, homes, (0, 0), (1, 1), hello 1 2, chain_wired, chain_loopFree,
    .step (.step (.step (.start _ chain_start) (.inject _ 0 0 (hello 1 2) (by decide) (by decide) rfl (by decide)))
      (.handle _ [] [] ⟨0, [(0, 0)], hello 1 2⟩ 0 0 [] 11 (hello 1 2).data (s1, m1, [34]) rfl rfl (by decide) (by decide)
        (fun _ _ => rfl) h1))
      (.handle _ [] [] ⟨0, [(1, 0), (0, 0)], ⟨m1, 34⟩⟩ 1 0 [(0, 0)] 11 m1 (s2, m2, [34]) rfl rfl (Nat.zero_le 11) (by decide)
        (fun _ _ => rfl) h2), ?_, ?_, ?_, rfl, rfl, by decide, ⟨0, [(0, 0)], ?_, rfl, by decide, by decide⟩, rfl, ?_⟩
  · intro e he
    obtain rfl := List.mem_singleton.1 he
    exact ⟨by decide, .inr (by decide)⟩
  · exact homes_group
  · exact homes_devices
  · exact .next 1 _ (.first _) (by decide) rfl
  · rintro ⟨g, hg, hl⟩
    obtain rfl := List.mem_singleton.1 hg
    exact absurd (show 34 = 60 from hl) (by decide)

namespace NetworkExample

/-- At time 5 a fresh bridge floods a frame of 60 bytes. -/
theorem fresh_flood (b : Nat) : ∃ s,
    process (chainNet.macs b) 2 (fresh b) { data := (hello 1 2).data, length := 60, time := 5, device := 0 } =
      some (s, (hello 1 2).data, [60]) :=
  ⟨_, rfl⟩

/-- The hypotheses of the theorems about networks without loops hold: a frame goes from one
host of `chainNet` to the other. -/
example : ∃ s, Reachable chainNet s ∧ s.wire = [] ∧ s.injected = [((0, 0), hello 1 2)] ∧ s.handled.length = 2 ∧
    (∀ e ∈ s.injected, dst e.2 ≠ BridgeSpec.stpAddr ∧ (BridgeSpec.group (src e.2) ∨ homes (src e.2) = some e.1)) ∧
    (∀ a, BridgeSpec.group a → homes a = none) ∧
    (∀ b < chainNet.bridges, ∀ d < chainNet.devices b, homes (number (chainNet.mac b d)) = none) ∧
    homes (dst (hello 1 2)) = some (1, 1) ∧ Connected chainNet (0, 0) (1, 1) ∧ chainNet.link (1, 1) = none ∧
    (∀ b < chainNet.bridges, s.clock b + (chainNet.config b).updateTime < 2 ^ 64) ∧
    (∀ g ∈ s.handled, g.2 = false) ∧ s.left = [⟨0, [(1, 1), (1, 0), (0, 0)], hello 1 2⟩] := by
  obtain ⟨s1, h1⟩ := fresh_flood 0
  obtain ⟨s2, h2⟩ := fresh_flood 1
  refine ⟨_,
    .step (.step (.step (.start _ chain_start) (.inject _ 0 0 (hello 1 2) (by decide) (by decide) rfl (by decide)))
      (.handle _ [] [] ⟨0, [(0, 0)], hello 1 2⟩ 0 0 [] 5 (hello 1 2).data (s1, (hello 1 2).data, [60]) rfl rfl (by decide)
        (by decide) (fun _ _ => rfl) h1))
      (.handle _ [] [] ⟨0, [(1, 0), (0, 0)], hello 1 2⟩ 1 0 [(0, 0)] 5 (hello 1 2).data (s2, (hello 1 2).data, [60]) rfl rfl
        (Nat.zero_le 5) (by decide) (fun _ _ => rfl) h2), rfl, rfl, rfl, ?_, ?_, ?_, by decide,
      ⟨0, [(0, 0)], .next 1 _ (.first _) (by decide) rfl, rfl, by decide, by decide⟩, rfl, ?_, ?_, rfl⟩
  · intro e he
    obtain rfl := List.mem_singleton.1 he
    exact ⟨by decide, .inr (by decide)⟩
  · exact homes_group
  · exact homes_devices
  · intro b hb
    have hb : b = 0 ∨ b = 1 := by have : b < 2 := hb; omega
    rcases hb with rfl | rfl
    · exact (by decide : 5 + 10 < 2 ^ 64)
    · exact (by decide : 5 + 10 < 2 ^ 64)
  · intro g hg
    rcases List.mem_cons.1 hg with rfl | hg
    · rfl
    · obtain rfl := List.mem_singleton.1 hg
      rfl

open Classical in
/-- In `loopNet` each handling of the frame to all makes one more. -/
example (s : St) (h : Reachable loopNet s) (hi : s.injected = [((0, 3), toAll)]) :
    1 + s.handled.countP (fun g => decide (Astray loopNet g.1.frame)) ≤
      s.wire.countP (fun g => decide (Astray loopNet g.frame)) := by
  have ha : Astray loopNet toAll := .inl ⟨by unfold BridgeSpec.group; decide, by decide⟩
  have := C73_storm loopNet loop_wired 1 loop_linked s h
    (by rw [hi]
        intro e he
        obtain rfl := List.mem_singleton.1 he
        exact ⟨by decide, not_endpoint (by decide)⟩) loop_devs
  rw [hi] at this
  simpa [ha] using this

end NetworkExample

end Verif.Props
