/- Property C47: the load balancer. -/
import Verif.Nf.Maglev
import Verif.Nf.PacketProofs
import Verif.Nf.TableProofs
import Verif.Props.Cht
import Verif.Props.Firewall

set_option autoImplicit false

namespace Verif.Props
open Verif.Nf (Packet Flow Table Out)
open Verif.Nf.Maglev (Balancer)
open Verif.PacketSpec (isTcpUdp flow)
open Verif.IndexPoolSpec (timeMax)

namespace MaglevSpec

/-- Time of the last heartbeat of each backend, after a packet. The first `n - 1`
devices are the backends. -/
def next (n : Nat) (beat : Nat → Option Nat) (p : Packet) : Nat → Option Nat :=
  if isTcpUdp p ∧ p.device < n - 1 then fun b => if b = p.device then some p.time else beat b else beat

/-- A backend is live for `exp` after its last heartbeat. -/
def live (exp now : Nat) (beat : Nat → Option Nat) (b : Nat) : Bool :=
  match beat b with
  | none => false
  | some v => decide (now ≤ v + exp)

/-- A packet to balance: TCP/UDP, from the last device. -/
def isClient (n : Nat) (p : Packet) : Prop := isTcpUdp p ∧ ¬ p.device < n - 1

end MaglevSpec
open MaglevSpec

/-- What is required of the outputs, apart from stickiness: client packets go unmodified
to a live backend, and are dropped only if no backend is live; nothing else is sent.
`choose` says which backend: it depends on the flow and the live backends only; the
alternative is backend 0. -/
def BalanceOk (n bexp : Nat) (choose : Flow → (Nat → Bool) → Option Nat) :
    (Nat → Option Nat) → List Packet → List (List Out) → Prop
  | _, [], outs => outs = []
  | beat, p :: ps, outs => ∃ o os, outs = o :: os ∧
    (¬ isClient n p → o = []) ∧
    (isClient n p →
      (o = [] ∧ ∀ b < n - 1, live bexp p.time beat b = false) ∨
      ∃ b, o = [.transmit p b false] ∧ b < n - 1 ∧ live bexp p.time beat b = true ∧
        (choose (flow p) (live bexp p.time beat) = some b ∨ b = 0)) ∧
    BalanceOk n bexp choose (next n beat p) ps os

structure BalInv (n fcap fexp bexp : Nat) (cht : Cht.Cht) (s : Balancer) (beat : Nat → Option Nat) : Prop where
  flows : Nf.Inv fcap fexp s.flows
  backends : s.flowBackends = List.replicate fcap 0
  pool : ∃ items, IndexPool.Rep (n - 1) bexp s.backendPool items ∧ ∀ b, items.get b = beat b
  cht : s.cht = cht

theorem used_rep {size exp : Nat} {p : IndexPool.Pool} {items : GMap Nat Nat} (rep : IndexPool.Rep size exp p items)
    (time x : Nat) : IndexPool.used p time x =
      some (match items.get x with | none => false | some v => IndexPoolSpec.young time exp v) := by
  obtain ⟨_, y, _, hx, _, hy⟩ := IndexPool.step_refines rep (.used time x) trivial
  simp only [IndexPool.step, Option.bind_eq_bind] at hx
  cases hb : IndexPool.used p time x with
  | none => simp [hb] at hx
  | some b =>
    simp [hb] at hx
    obtain ⟨rfl, rfl⟩ := hx
    rw [hy.2]
    cases items.get x <;> rfl

theorem used_live {n fcap fexp bexp : Nat} {cht : Cht.Cht} {s : Balancer} {beat : Nat → Option Nat}
    (inv : BalInv n fcap fexp bexp cht s beat) (t b : Nat) :
    IndexPool.used s.backendPool t b = some (live bexp t beat b) := by
  obtain ⟨items, rep, hi⟩ := inv.pool
  rw [used_rep rep, hi, live]
  cases beat b with
  | none => rfl
  | some v =>
    simp only [IndexPoolSpec.young]
    congr 1
    by_cases h : t < bexp
    · simp [h]; omega
    · simp [h]

/-- The first live backend in the row of the flow's hash. -/
def chtChoose (cht : Cht.Cht) (n : Nat) (hash : Flow → Nat) (f : Flow) (l : Nat → Bool) : Option Nat :=
  (((List.range (n - 1)).map fun k => (cht.data[hash f % cht.height * (n - 1) + k]?).getD 0).find? l)

theorem find_choose {n fcap fexp bexp h : Nat} {cht : Cht.Cht} {s : Balancer} {beat : Nat → Option Nat}
    (inv : BalInv n fcap fexp bexp cht s beat) (hcap : n - 1 < h) (hh : h < 40000)
    (hs : ∀ s, 1 ≤ s → s ≤ n - 1 → Nat.Coprime h s) (hc : Cht.alloc h (n - 1) = some cht) (hash : Flow → Nat) (f : Flow) (t : Nat) :
    ∃ r, Cht.find s.cht (hash f) s.backendPool t = some r ∧ r = chtChoose cht n hash f (live bexp t beat) ∧
      (∀ b, r = some b → b < n - 1 ∧ live bexp t beat b = true) ∧ (r = none → ∀ b < n - 1, live bexp t beat b = false) := by
  obtain ⟨c', hc', hch, hcc, hrows⟩ := Cht.alloc_spec hcap hh (coprime_of_small hcap hs)
  rw [hc] at hc'; cases hc'
  obtain ⟨row, hperm, hrow⟩ := hrows (hash f % h) (Nat.mod_lt _ (by omega))
  have hlen : row.length = n - 1 := by simpa using hperm.length_eq
  have hrow' : (List.range (n - 1)).map (fun k => (cht.data[hash f % cht.height * (n - 1) + k]?).getD 0) = row := by
    apply List.ext_getElem
    · simp [hlen]
    · intro k h1 h2
      simp only [List.getElem_map, List.getElem_range]
      rw [hch, hrow k (by omega), List.getElem?_eq_getElem h2, Option.getD_some]
  have hf := Cht.findLoop_spec cht s.backendPool t (hash f % h * (n - 1)) (n - 1) row (live bexp t beat) hrow hlen
    (fun x => used_live inv t x) (n - 1) 0 (by omega)
  refine ⟨row.find? (live bexp t beat), ?_, ?_, ?_, ?_⟩
  · rw [inv.cht]; simpa [Cht.find, Cht.loop, hch, hcc] using hf
  · rw [chtChoose, hrow']
  · intro b hb
    exact ⟨List.mem_range.1 (hperm.mem_iff.1 (List.mem_of_find?_eq_some hb)), List.find?_some hb⟩
  · intro hn b hb
    have := List.find?_eq_none.1 hn b (hperm.mem_iff.2 (List.mem_range.2 hb))
    simpa using this

theorem pick_spec {n fcap fexp bexp h : Nat} {cht : Cht.Cht} {s : Balancer} {beat : Nat → Option Nat}
    (inv : BalInv n fcap fexp bexp cht s beat) (hcap : n - 1 < h) (hh : h < 40000)
    (hs : ∀ s, 1 ≤ s → s ≤ n - 1 → Nat.Coprime h s) (hc : Cht.alloc h (n - 1) = some cht) (hash : Flow → Nat) (f : Flow)
    {t : Nat} (ht : t < timeMax) (hl : Nf.look s.flows f = none) :
    ∃ s' r, Nf.Maglev.pick hash s f t = some (s', r) ∧ BalInv n fcap fexp bexp cht s' beat ∧
      r = chtChoose cht n hash f (live bexp t beat) ∧
      (∀ b, r = some b → b < n - 1 ∧ live bexp t beat b = true) ∧ (r = none → ∀ b < n - 1, live bexp t beat b = false) := by
  obtain ⟨r, h1, h2, h3, h4⟩ := find_choose inv hcap hh hs hc hash f t
  cases r with
  | none => exact ⟨s, none, by simp [Nf.Maglev.pick, h1], inv, h2, h3, h4⟩
  | some b =>
    obtain ⟨tb', i, h5, h6, _⟩ := Nf.insert_spec inv.flows hl ht
    exact ⟨{ s with flows := tb' }, some b, by simp [Nf.Maglev.pick, h1, h5], ⟨h6, inv.backends, inv.pool, inv.cht⟩, h2, h3, h4⟩

theorem balancer_step {n fcap fexp bexp h : Nat} {cht : Cht.Cht} {s : Balancer} {beat : Nat → Option Nat}
    (inv : BalInv n fcap fexp bexp cht s beat) (hcap : n - 1 < h) (hh : h < 40000)
    (hs : ∀ s, 1 ≤ s → s ≤ n - 1 → Nat.Coprime h s) (hc : Cht.alloc h (n - 1) = some cht) (hn : 2 ≤ n) (hash : Flow → Nat)
    {p : Packet} (ht : p.time < timeMax) :
    ∃ s' o, Nf.Maglev.handle hash n s p = some (s', o) ∧ BalInv n fcap fexp bexp cht s' (next n beat p) ∧
      (¬ isClient n p → o = []) ∧
      (isClient n p →
        (o = [] ∧ ∀ b < n - 1, live bexp p.time beat b = false) ∨
        ∃ b, o = [.transmit p b false] ∧ b < n - 1 ∧ live bexp p.time beat b = true ∧
          (chtChoose cht n hash (flow p) (live bexp p.time beat) = some b ∨ b = 0)) := by
  by_cases hip : PacketSpec.isIpv4 p
  swap
  · have hn4 : ¬ isTcpUdp p := fun h => hip h.1
    refine ⟨s, [], by simp [Nf.Maglev.handle, Nf.getIpv4Header_eq, hip], ?_, fun _ => rfl, fun h => absurd h.1 hn4⟩
    rw [next, if_neg (fun h => hn4 h.1)]; exact inv
  by_cases hl4 : isTcpUdp p
  swap
  · refine ⟨s, [], by simp [Nf.Maglev.handle, Nf.getIpv4Header_eq, hip, Nf.getTcpudpHeader_eq p hip, hl4], ?_,
      fun _ => rfl, fun h => absurd h.1 hl4⟩
    rw [next, if_neg (fun h => hl4 h.1)]; exact inv
  have hflow : (⟨Nf.ld32 p.data (14 + 12), Nf.ld32 p.data (14 + 16), Nf.ld16 p.data 34, Nf.ld16 p.data (34 + 2),
      (p.data (14 + 9)).toNat⟩ : Flow) = flow p := by
    simp only [Nf.ld32_dword, Nf.ld16_word, flow, PacketSpec.byte]
  simp only [Nf.Maglev.handle, Nf.getIpv4Header_eq, hip, Nf.getTcpudpHeader_eq p hip, hl4, if_true, hflow]
  by_cases hd : p.device < n - 1
  · -- heartbeat
    obtain ⟨items, rep, hi⟩ := inv.pool
    have htm : p.time ≠ IndexPool.TIME_MAX := by rw [← IndexPool.timeMax_eq]; omega
    have rep' := rep.set hd htm s.backendPool.lastBorrowed rep.lbi
    refine ⟨{ s with backendPool := { s.backendPool with timestamps := s.backendPool.timestamps.set p.device p.time } }, [],
      ?_, ?_, fun _ => rfl, fun h => absurd hd h.2⟩
    · rw [if_pos hd]
      simp [Nf.Maglev.heartbeat, IndexPool.refresh, rep.len, hd]
    · refine ⟨inv.flows, inv.backends, ⟨_, rep', ?_⟩, inv.cht⟩
      intro b
      rw [next, if_pos ⟨hl4, hd⟩, GMap.get_set, hi]
      by_cases hb : p.device = b
      · simp [hb]
      · simp [hb, Ne.symm hb]
  · rw [if_neg hd]
    have hnext : next n beat p = beat := by rw [next, if_neg (fun h => hd h.2)]
    rw [hnext]
    have hcl : isClient n p := ⟨hl4, hd⟩
    have fin : ∀ s' r, Nf.Maglev.getBackend hash s (flow p) p.time = some (s', r) → BalInv n fcap fexp bexp cht s' beat →
        (r = none → ∀ b < n - 1, live bexp p.time beat b = false) →
        (∀ b, r = some b → b < n - 1 ∧ live bexp p.time beat b = true ∧
          (chtChoose cht n hash (flow p) (live bexp p.time beat) = some b ∨ b = 0)) →
        ∃ s' o, (do
            match ← Nf.Maglev.getBackend hash s (flow p) p.time with
            | (s, none) => some (s, [])
            | (s, some backend) => some (s, [Out.transmit p backend false])) = some (s', o) ∧ BalInv n fcap fexp bexp cht s' beat ∧
          (¬ isClient n p → o = []) ∧
          (isClient n p →
            (o = [] ∧ ∀ b < n - 1, live bexp p.time beat b = false) ∨
            ∃ b, o = [.transmit p b false] ∧ b < n - 1 ∧ live bexp p.time beat b = true ∧
              (chtChoose cht n hash (flow p) (live bexp p.time beat) = some b ∨ b = 0)) := by
      intro s' r h1 h2 h3 h4
      cases r with
      | none => exact ⟨s', [], by simp [h1], h2, fun h => absurd hcl h, fun _ => .inl ⟨rfl, h3 rfl⟩⟩
      | some b => exact ⟨s', _, by simp only [h1, Option.bind_eq_bind, Option.bind_some], h2, fun h => absurd hcl h, fun _ => .inr ⟨b, rfl, h4 b rfl⟩⟩
    cases hg : s.flows.map.get (flow p) with
    | some i =>
      obtain ⟨v, _, hl⟩ := Nf.look_of_get inv.flows hg
      have hi := (Nf.look_key inv.flows hl).2
      have hb : s.flowBackends[i]? = some 0 := by rw [inv.backends]; simp [hi]
      cases ha : live bexp p.time beat 0 with
      | true =>
        obtain ⟨tb', h1, h2, _⟩ := Nf.refresh_spec inv.flows hl ht
        refine fin { s with flows := tb' } (some 0) ?_ ⟨h2, inv.backends, inv.pool, inv.cht⟩ (by simp) ?_
        · simp [Nf.Maglev.getBackend, hg, hb, used_live inv, ha, Nf.Maglev.knownFlow, h1]
        · rintro b ⟨⟩; exact ⟨by omega, ha, .inr rfl⟩
      | false =>
        obtain ⟨tb', h1, h2, h3⟩ := Nf.drop_spec inv.flows hl
        obtain ⟨s', r, h4, h5, h6, h7, h8⟩ := pick_spec (s := { s with flows := tb' })
          ⟨h2, inv.backends, inv.pool, inv.cht⟩ hcap hh hs hc hash (flow p) ht (by simp [h3])
        refine fin s' r ?_ h5 h8 ?_
        · simp [Nf.Maglev.getBackend, hg, hb, used_live inv, ha, Nf.Maglev.knownFlow, h1, h4]
        · intro b hb; exact ⟨(h7 b hb).1, (h7 b hb).2, .inl (by rw [← h6, hb])⟩
    | none =>
      obtain ⟨s', r, h4, h5, h6, h7, h8⟩ := pick_spec inv hcap hh hs hc hash (flow p) ht (Nf.look_none_of_get hg)
      refine fin s' r ?_ h5 h8 ?_
      · simp [Nf.Maglev.getBackend, hg, h4]
      · intro b hb; exact ⟨(h7 b hb).1, (h7 b hb).2, .inl (by rw [← h6, hb])⟩

/-- C47, initialization: a balancer starts only with a device besides the backends', and with fewer backends than the height of its
hash table, which is below 40000. -/
theorem C47_init_checked (n fcap fexp bexp h : Nat) (s : Balancer) (hi : Nf.Maglev.init n fcap fexp bexp h = some s) : 2 ≤ n ∧ n - 1 < h ∧ h < 40000 := by
  unfold Nf.Maglev.init at hi
  split at hi
  · cases hi
  split at hi
  · cases hi
  split at hi
  · cases hi
  omega

/-- C47 except stickiness: with a table height the hash table supports (C07), every run
sends client packets unmodified to a backend that is live, drops them only if none is,
and treats the other packets as heartbeats only. The backend is the one the hash table
chooses from the flow and the set of live backends, or backend 0. Missing: stickiness,
which is false (`C47_not_sticky`). -/
theorem C47_live_backend_partial (n fcap fexp bexp h : Nat) (hn : 2 ≤ n) (hcap : n - 1 < h) (hh : h < 40000)
    (hs : ∀ s, 1 ≤ s → s ≤ n - 1 → Nat.Coprime h s) (hash : Flow → Nat) :
    ∃ s0 choose, Nf.Maglev.init n fcap fexp bexp h = some s0 ∧
      ∀ ps : List Packet, (∀ p ∈ ps, p.time < timeMax) →
        ∃ s outs, Nf.Maglev.run hash n s0 ps = some (s, outs) ∧ BalanceOk n bexp choose (fun _ => none) ps outs := by
  obtain ⟨cht, hc, _⟩ := Cht.alloc_spec hcap hh (coprime_of_small hcap hs)
  obtain ⟨tb, h1, h2, _⟩ := Nf.inv_alloc Flow.zero fcap fexp
  obtain ⟨q, hq, rep⟩ := IndexPool.alloc_rep (n - 1) bexp
  refine ⟨⟨tb, List.replicate fcap 0, q, cht⟩, chtChoose cht n hash, ?_, ?_⟩
  · unfold Nf.Maglev.init
    rw [if_neg (by omega), if_neg (by omega), if_neg (by omega)]
    simp [Nf.Maglev.alloc, h1, hq, hc]
  have key : ∀ (ps : List Packet) (s : Balancer) (beat : Nat → Option Nat), BalInv n fcap fexp bexp cht s beat →
      (∀ p ∈ ps, p.time < timeMax) →
      ∃ s' outs, Nf.Maglev.run hash n s ps = some (s', outs) ∧ BalanceOk n bexp (chtChoose cht n hash) beat ps outs := by
    intro ps
    induction ps with
    | nil => intro s beat _ _; exact ⟨s, [], rfl, rfl⟩
    | cons p ps ih =>
      intro s beat inv hp
      obtain ⟨s1, o, h3, h4, h5, h6⟩ := balancer_step inv hcap hh hs hc hn hash (hp p (by simp))
      obtain ⟨s2, os, h7, h8⟩ := ih s1 _ h4 (fun q hq => hp q (by simp [hq]))
      exact ⟨s2, o :: os, by simp [Nf.Maglev.run, h3, h7], o, os, rfl, h5, h6, h8⟩
  intro ps hp
  exact key ps _ _ ⟨h2, rfl, ⟨[], rep, fun _ => rfl⟩, rfl⟩ hp

/-- A heartbeat makes a backend live for the expiration time. -/
theorem C47_heartbeat_makes_live (n exp : Nat) (beat : Nat → Option Nat) (p : Packet) (hp : isTcpUdp p) (hd : p.device < n - 1)
    (now : Nat) (h : now ≤ p.time + exp) : live exp now (next n beat p) p.device = true := by
  simp [live, next, hp, hd, h]

/-- The devices the client packets of a run were sent to. -/
def backendsUsed (hash : Flow → Nat) (n fcap fexp bexp h : Nat) (ps : List Packet) : Option (List Nat) :=
  (Nf.Maglev.init n fcap fexp bexp h).bind fun s => (Nf.Maglev.run hash n s ps).map fun r =>
    (r.2.flatMap id).filterMap fun o => match o with | .transmit _ d _ => some d | _ => none

/-- Stickiness is false: with two live backends, two packets of the same flow, one right
after the other, go to different backends. -/
theorem C47_not_sticky : ∃ (hash : Flow → Nat) (ps : List Packet),
    ps = [samplePacket 9 9 9 9 0 1, samplePacket 9 9 9 9 1 1, samplePacket 1 2 3 4 2 2, samplePacket 1 2 3 4 2 3] ∧
    flow (samplePacket 1 2 3 4 2 2) = flow (samplePacket 1 2 3 4 2 3) ∧
    backendsUsed hash 3 4 100 100 5 ps = some [1, 0] :=
  ⟨fun _ => 1, _, rfl, rfl, by decide⟩

/-- Stickiness when backend 0 is not live: client packets of one flow that see the same
live backends go to the same one. -/
theorem C47_sticky_without_backend_0_partial (n bexp : Nat) (choose : Flow → (Nat → Bool) → Option Nat)
    (beat : Nat → Option Nat) (p : Packet) (ps : List Packet) (o : List Out) (os : List (List Out))
    (beat' : Nat → Option Nat) (p' : Packet) (ps' : List Packet) (o' : List Out) (os' : List (List Out))
    (h : BalanceOk n bexp choose beat (p :: ps) (o :: os)) (h' : BalanceOk n bexp choose beat' (p' :: ps') (o' :: os'))
    (hc : isClient n p) (hc' : isClient n p') (hf : flow p = flow p')
    (hl : live bexp p.time beat = live bexp p'.time beat') (h0 : live bexp p.time beat 0 = false) :
    (o = [] ∧ o' = []) ∨ ∃ b, o = [.transmit p b false] ∧ o' = [.transmit p' b false] := by
  obtain ⟨_, _, e, _, h2, _⟩ := h; cases e
  obtain ⟨_, _, e, _, h2', _⟩ := h'; cases e
  rcases h2 hc with ⟨h3, h4⟩ | ⟨b, h3, h4, h5, h6⟩ <;> rcases h2' hc' with ⟨h3', h4'⟩ | ⟨b', h3', h4', h5', h6'⟩
  · exact .inl ⟨h3, h3'⟩
  · rw [← hl, h4 b' h4'] at h5'; cases h5'
  · rw [hl, h4' b h4] at h5; cases h5
  · refine .inr ⟨b, h3, ?_⟩
    have e1 : choose (flow p) (live bexp p.time beat) = some b := by
      rcases h6 with h | rfl
      · exact h
      · rw [h0] at h5; cases h5
    have e2 : choose (flow p') (live bexp p'.time beat') = some b' := by
      rcases h6' with h | rfl
      · exact h
      · rw [← hl, h0] at h5'; cases h5'
    rw [← hf, ← hl, e1] at e2
    cases e2; exact h3'

/-- Non-vacuity: height 5 qualifies for 2 backends; one client packet before any heartbeat
is dropped, the next ones go to the live backend. -/
example : (2 ≤ 3 ∧ 3 - 1 < 5 ∧ ∀ s, 1 ≤ s → s ≤ 3 - 1 → Nat.Coprime 5 s) ∧
    backendsUsed (fun _ => 1) 3 4 100 100 5
      [samplePacket 1 2 3 4 2 1, samplePacket 9 9 9 9 1 1, samplePacket 1 2 3 4 2 2, samplePacket 1 2 3 4 2 3] = some [1, 1] := by
  refine ⟨⟨by decide, by decide, fun s h1 h2 => ?_⟩, by decide⟩
  have : s = 1 ∨ s = 2 := by omega
  rcases this with rfl | rfl <;> decide

end Verif.Props
