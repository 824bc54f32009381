/- Property C72: the whole program, with its network function, devices and cards. -/
import Verif.Env.MachineProofs
import Verif.Nf.Machine
import Verif.Props.Runtime
import Verif.Props.Low

set_option autoImplicit false

namespace Verif.Props
open Verif.Nf (Packet Flow Out)
open Verif.PacketSpec (isTcpUdp isIpv4 flow reverse)
open Verif.IndexPoolSpec (timeMax)
open Verif.Nf.Runtime (Macs indexFromDevice)
open LowSpec (Placed)

/-! ### Any handler -/

section
variable {σ D : Type}
open Verif.Machine (Call after resultsOf ofDevice)

/-- Whatever cards and clock do and however the turns fall: the handler has been called for
some sequence of packets, at times that do not decrease; the packets of each device are the
first ones received there, in order; the network function is in the state after these
calls; and each output has sent the first results of the packets of its input, in order, with
the lengths that the handler chose. -/
theorem C72_machine {n : Nat} (hn : 2 ≤ n) {h : Machine.Handler σ D} (hb : Machine.Bounded n h) {nf0 : σ} {t0 : Nat}
    {buf : Nat → Nat → D} {m : Machine.St σ D} (hs : Machine.Steps n h (Machine.start nf0 t0 buf) m) :
    ∃ calls : List (Call D), m.nf = after h nf0 calls ∧
      calls.Pairwise (fun a b => a.time ≤ b.time) ∧ (∀ c ∈ calls, c.device < n ∧ t0 ≤ c.time ∧ c.time ≤ m.now) ∧
      ∀ i < n, (ofDevice i calls).map (fun c => (c.data, c.len)) <+: (m.agents i).received ∧
        ∀ j < n - 1, (m.agents i).sent j <+: (resultsOf h nf0 calls i).map fun o => (o.1, o.2 j) := by
  obtain ⟨calls, inv⟩ := Machine.inv_steps hn hb hs
  exact ⟨calls, inv.nf, inv.order, fun c hc => ⟨inv.devices c hc, inv.now c hc⟩,
    fun i _ => ⟨Machine.inv_received hn inv i, fun j hj => Machine.inv_sent hb inv i j hj⟩⟩

/-- When an agent waits for packets, all that were received at its device have been handled;
an output with nothing queued has sent all results. -/
theorem C72_nothing_lost {n : Nat} (hn : 2 ≤ n) {h : Machine.Handler σ D} (hb : Machine.Bounded n h) {nf0 : σ} {t0 : Nat}
    {buf : Nat → Nat → D} {m : Machine.St σ D} (hs : Machine.Steps n h (Machine.start nf0 t0 buf) m) :
    ∃ calls : List (Call D), m.nf = after h nf0 calls ∧
      calls.Pairwise (fun a b => a.time ≤ b.time) ∧ (∀ c ∈ calls, c.device < n ∧ t0 ≤ c.time ∧ c.time ≤ m.now) ∧
      ∀ i < n, Idle (m.agents i) → (ofDevice i calls).map (fun c => (c.data, c.len)) = (m.agents i).received ∧
        ∀ j < n - 1, (m.agents i).tdh j = (m.agents i).tdt j →
          (m.agents i).sent j = (resultsOf h nf0 calls i).map fun o => (o.1, o.2 j) := by
  obtain ⟨calls, inv⟩ := Machine.inv_steps hn hb hs
  exact ⟨calls, inv.nf, inv.order, fun c hc => ⟨inv.devices c hc, inv.now c hc⟩,
    fun i _ hid => ⟨Machine.inv_waits hn inv i hid, fun j hj hq => (Machine.inv_idle hn hb inv i j hj hid.1 hid.2 hq).2⟩⟩

/-- When no further packet arrives, the agents in turn handle all that were received. -/
theorem C72_catches_up {n : Nat} (hn : 2 ≤ n) {h : Machine.Handler σ D} (hb : Machine.Bounded n h) {nf0 : σ} {t0 : Nat}
    {buf : Nat → Nat → D} {m : Machine.St σ D} (hs : Machine.Steps n h (Machine.start nf0 t0 buf) m) :
    ∃ m', Machine.Alone n h m m' ∧ ∃ calls : List (Call D), m'.nf = after h nf0 calls ∧
      ∀ i < n, Idle (m'.agents i) ∧ (m'.agents i).received = (m.agents i).received ∧
        (ofDevice i calls).map (fun c => (c.data, c.len)) = (m.agents i).received := by
  obtain ⟨calls, inv⟩ := Machine.inv_steps hn hb hs
  obtain ⟨m', h1, h2⟩ := Machine.quiesces hn hb _ m calls inv (Nat.lt_succ_self _)
  obtain ⟨calls', inv'⟩ := Machine.inv_steps hn hb (Machine.steps_trans hs h1.steps)
  refine ⟨m', h1, calls', inv'.nf, fun i hi => ⟨h2 i hi, Machine.alone_received h1 i, ?_⟩⟩
  rw [← Machine.alone_received h1 i]
  exact Machine.inv_waits hn inv' i (h2 i hi)

end

/-! ### Network functions -/

namespace MachineSpec

/-- What has to leave device `d`, given what the network function asked for: contents and
length, where no packet is a length of 0. With updated addresses, the addresses are those of
the device, or, when flooding, anything. -/
def Leaves (macs : Macs) (outs : List Out) (d : Nat) (w : Mem × Nat) : Prop :=
  match outs with
  | [] => w.2 = 0
  | [.transmit q e u] =>
    if d = e then
      w.2 = q.length ∧ (u = false → w.1 = q.data) ∧ (∀ x, x ≥ 12 → w.1 x = q.data x) ∧
        (u = true → (∀ x < 6, some (w.1 x) = (macs.endpoint[d]?).map fun a => (a[x]?).getD 0) ∧
          (∀ x < 6, some (w.1 (6 + x)) = (macs.device[d]?).map fun a => (a[x]?).getD 0))
    else w.2 = 0
  | [.flood q u] => w.2 = q.length ∧ (u = false → w.1 = q.data) ∧ ∀ x, x ≥ 12 → w.1 x = q.data x
  | [.floodExcept q dis u] =>
    if dis[d]? = some true then w.2 = 0
    else w.2 = q.length ∧ (u = false → w.1 = q.data) ∧ ∀ x, x ≥ 12 → w.1 x = q.data x
  | _ => False

/-- The device of the packet is kept, at most one request is made, and a request names
another device that exists. -/
def Sensible (n : Nat) (p : Packet) (outs : List Out) : Prop :=
  match outs with
  | [] => True
  | [.transmit q e _] => q.device = p.device ∧ e < n ∧ e ≠ p.device
  | [.flood q _] => q.device = p.device
  | [.floodExcept q dis _] => q.device = p.device ∧ dis.length = n
  | _ => False

/-- The length of the packet of a request. -/
def lengthOf : Out → Nat
  | .transmit q _ _ => q.length
  | .flood q _ => q.length
  | .floodExcept q _ _ => q.length

/-- The packets of a device. -/
def from_ (i : Nat) (ps : List Packet) : List Packet := ps.filter fun p => p.device == i

/-- The requests for the packets of a device. -/
def asked (i : Nat) (ps : List Packet) (outs : List (List Out)) : List (List Out) :=
  ((ps.zip outs).filter fun x => x.1.device == i).map Prod.snd

/-- What the machine has done is what the network function asked for on the packets `ps`:
those of each device are the first ones received there, all of them if its agent waits, and
each output has sent the first requests of its input, all of them if nothing is queued. -/
def Done {σ : Type} (macs : Macs) (n : Nat) (m : Machine.St σ Mem) (ps : List Packet) (outs : List (List Out)) : Prop :=
  ∀ i < n, (from_ i ps).map (fun p => (p.data, p.length)) <+: (m.agents i).received ∧
    (Idle (m.agents i) → (from_ i ps).map (fun p => (p.data, p.length)) = (m.agents i).received) ∧
    ∀ d < n, d ≠ i → ∃ k ≤ (asked i ps outs).length,
      (Idle (m.agents i) → (m.agents i).tdh (indexFromDevice i d) = (m.agents i).tdt (indexFromDevice i d) →
        k = (asked i ps outs).length) ∧
      List.Forall₂ (fun o w => Leaves macs o d w) ((asked i ps outs).take k) ((m.agents i).sent (indexFromDevice i d))

end MachineSpec
open MachineSpec

namespace MachineNf
open Verif.Nf.Machine Verif.Nf.Runtime Verif.Machine

variable {S : Type} {macs : Macs} {n : Nat} {handle : S → Packet → Option (S × List Out)}

/-- The packet of a call. -/
def pkt (c : Call Mem) : Packet := { data := c.data, length := c.len, time := c.time, device := c.device }

theorem store_bounded {l l' : List Nat} {i v b : Nat} (h : store l i v = some l') (hl : ∀ x ∈ l, x < b) (hv : v < b) :
    ∀ x ∈ l', x < b := by
  unfold store at h
  split at h
  · cases h
    intro x hx
    rcases List.mem_or_eq_of_mem_set hx with hx | rfl
    · exact hl x hx
    · exact hv
  · cases h

theorem floodLoop_bounded {b input length : Nat} {u : Bool} {dis : Option (List Bool)} (hv : length < b) :
    ∀ (k i : Nat) (m : Mem) (ls : List Nat) (m' : Mem) (ls' : List Nat), (∀ x ∈ ls, x < b) →
      floodLoop macs input length u dis k i m ls = some (m', ls') → ∀ x ∈ ls', x < b := by
  intro k
  induction k with
  | zero => intro i m ls m' ls' hl h; cases h; exact hl
  | succ k ih =>
    intro i m ls m' ls' hl h
    unfold floodLoop at h
    simp only [Option.bind_eq_bind, Option.bind_eq_some_iff] at h
    obtain ⟨m1, _, off, _, l1, h1, h⟩ := h
    exact ih _ _ _ _ _ (store_bounded h1 hl (by split <;> omega)) h

theorem emit_bounded {b : Nat} {o : Out} {ls ls' : List Nat} {m' : Mem} (hv : lengthOf o < b) (hl : ∀ x ∈ ls, x < b)
    (h : emit macs n ls o = some (m', ls')) : ∀ x ∈ ls', x < b := by
  cases o with
  | transmit q e u =>
    simp only [emit, netTransmit, Option.bind_eq_bind, Option.bind_eq_some_iff] at h
    obtain ⟨m1, _, l1, h1, h⟩ := h
    cases h
    exact store_bounded h1 hl hv
  | flood q u => exact floodLoop_bounded hv _ _ _ _ _ _ hl h
  | floodExcept q dis u => exact floodLoop_bounded hv _ _ _ _ _ _ hl h

theorem emitAll_bounded {b : Nat} : ∀ (os : List Out) (m : Mem) (ls : List Nat) (m' : Mem) (ls' : List Nat),
    (∀ o ∈ os, lengthOf o < b) → (∀ x ∈ ls, x < b) → emitAll macs n m ls os = some (m', ls') → ∀ x ∈ ls', x < b := by
  intro os
  induction os with
  | nil => intro m ls m' ls' _ hl h; cases h; exact hl
  | cons o os ih =>
    intro m ls m' ls' hv hl h
    unfold emitAll at h
    simp only [Option.bind_eq_bind, Option.bind_eq_some_iff] at h
    obtain ⟨⟨m1, l1⟩, h1, h⟩ := h
    exact ih _ _ _ _ (fun o ho => hv o (by simp [ho])) (emit_bounded (hv o (by simp)) hl h1) h

theorem handler_bounded (hlen : ∀ s p s' o, handle s p = some (s', o) → p.length < 2 ^ 16 → ∀ x ∈ o, lengthOf x < 2 ^ 16) :
    Verif.Machine.Bounded n (handler macs n handle) := by
  intro i t _ s d len j hl _
  unfold handler
  split
  · show 0 < 2 ^ 16; decide
  split
  · show 0 < 2 ^ 16; decide
  rename_i h1
  split
  · show 0 < 2 ^ 16; decide
  rename_i ls h2
  have := emitAll_bounded (b := 2 ^ 16) _ _ _ _ _ (hlen _ _ _ _ h1 hl) (by intro x hx; simp at hx; omega) h2
  show ls.getD j 0 < 2 ^ 16
  rw [List.getD_eq_getElem?_getD]
  cases hj : ls[j]? with
  | none => show 0 < 2 ^ 16; decide
  | some x => exact this x (List.mem_of_getElem? hj)

theorem range_zero (n : Nat) : (List.range n).map (fun _ => (0 : Nat)) = List.replicate n 0 := by
  simp

/-- One request has the effect that it should have on each device. -/
theorem emit_leaves (h1 : macs.endpoint.length = n) (h2 : macs.device.length = n) {p : Packet} (hp : p.device < n)
    {outs : List Out} (ho : Sensible n p outs) :
    ∃ m ls, emitAll macs n p.data (List.replicate (n - 1) 0) outs = some (m, ls) ∧
      ∀ d < n, d ≠ p.device → Leaves macs outs d (m, ls.getD (indexFromDevice p.device d) 0) := by
  have hidx := (C49_indices_one_to_one n p.device hp).1
  match outs, ho with
  | [], _ =>
    refine ⟨p.data, _, rfl, fun d hd hne => ?_⟩
    have := (hidx d hd hne).1
    simp [Leaves, this]
  | [.transmit q e u], ⟨hq, he, hne⟩ =>
    obtain ⟨m, hm, hme⟩ := handleFlags_ok macs n h1 h2 q.data e he u
    have hie := hidx e he hne
    refine ⟨m, (List.replicate (n - 1) 0).set (indexFromDevice p.device e) q.length, ?_, fun d hd hdne => ?_⟩
    · simp [emitAll, emit, netTransmit, hm, store, hq, hie.1]
    · have hid := hidx d hd hdne
      unfold Leaves
      dsimp only
      by_cases hde : d = e
      · subst hde
        rw [if_pos rfl]
        refine ⟨by simp [hid.1], fun hu => by rw [hme, hu]; rfl, fun x hx => ?_, fun hu => ?_⟩
        · rw [hme]
          cases u with
          | false => rfl
          | true =>
            simp only [if_true, stMac]
            rw [if_neg (by omega), if_neg (by omega)]
        · subst hu
          simp only [if_true] at hme
          subst hme
          have e1 : macs.endpoint[d]? = some macs.endpoint[d] := List.getElem?_eq_getElem (by omega)
          have e2 : macs.device[d]? = some macs.device[d] := List.getElem?_eq_getElem (by omega)
          refine ⟨fun x hx => ?_, fun x hx => ?_⟩
          · simp only [stMac, e1, Option.map_some, Option.getD_some]
            rw [if_neg (by omega), if_pos (by omega)]
            simp
          · simp only [stMac, e2, Option.map_some, Option.getD_some]
            rw [if_pos (by omega)]
            simp
      · rw [if_neg hde]
        have hneq : indexFromDevice p.device e ≠ indexFromDevice p.device d := by
          intro hc
          have := hid.2.1
          rw [← hc, hie.2.1] at this
          exact hde this.symm
        show ((List.replicate (n - 1) 0).set _ _).getD _ 0 = 0
        rw [List.getD_eq_getElem?_getD, List.getElem?_set_ne hneq]
        simp [hid.1]
  | [.flood q u], hq =>
    replace hq : q.device = p.device := hq
    obtain ⟨m, ls, h3, h4, _, h6, h7, h8⟩ := floodLoop_spec macs n h1 h2 p.device q.length hp u none (by simp) (n - 1) 0 q.data
      (List.replicate (n - 1) 0) (by omega) (by simp)
    refine ⟨m, ls, ?_, fun d hd hne => ⟨?_, h7, h8⟩⟩
    · simp [emitAll, emit, hq, h3]
    · show ls.getD _ 0 = q.length
      rw [List.getD_eq_getElem?_getD, h6 _ (by omega) (hidx d hd hne).1]
      rfl
  | [.floodExcept q dis u], ⟨hq, hdis⟩ =>
    obtain ⟨m, ls, h3, h4, _, h6, h7, h8⟩ := floodLoop_spec macs n h1 h2 p.device q.length hp u (some dis)
      (by intro l hl; cases hl; exact hdis) (n - 1) 0 q.data (List.replicate (n - 1) 0) (by omega) (by simp)
    refine ⟨m, ls, ?_, fun d hd hne => ?_⟩
    · simp [emitAll, emit, hq, h3]
    · have := hidx d hd hne
      unfold Leaves
      dsimp only
      have e : ls.getD (indexFromDevice p.device d) 0 = if dis[d]? = some true then 0 else q.length := by
        rw [List.getD_eq_getElem?_getD, h6 _ (by omega) this.1, this.2.1]
        by_cases hb : dis[d]? = some true <;> simp [hb]
      split
      · rename_i hb; rw [if_pos hb] at e; exact e
      · rename_i hb; rw [if_neg hb] at e; exact ⟨e, h7, h8⟩

/-- The calls of the handler are the run of the network function. -/
theorem results_run (h1 : macs.endpoint.length = n) (h2 : macs.device.length = n) : ∀ (cs : List (Call Mem)) (s s' : S)
    (outs : List (List Out)), Nf.Low.run handle s (cs.map pkt) = some (s', outs) →
      List.Forall₂ (Sensible n) (cs.map pkt) outs → (∀ c ∈ cs, c.device < n) →
      after (handler macs n handle) (some s) cs = some s' ∧
      List.Forall₂ (fun r o => ∀ d < n, d ≠ r.1.device → Leaves macs o d (r.2.1, r.2.2 (indexFromDevice r.1.device d)))
        (results (handler macs n handle) (some s) cs) outs := by
  intro cs
  induction cs with
  | nil => intro s s' outs h _ _; cases h; exact ⟨rfl, .nil⟩
  | cons c cs ih =>
    intro s s' outs h hf hd
    simp only [List.map_cons, Nf.Low.run, Option.bind_eq_bind, Option.bind_eq_some_iff] at h
    obtain ⟨⟨s1, o⟩, h3, ⟨s2, os⟩, h4, h⟩ := h
    cases h
    rw [List.map_cons, List.forall₂_cons] at hf
    obtain ⟨m, ls, h5, h6⟩ := emit_leaves h1 h2 (p := pkt c) (hd c (by simp)) hf.1
    have e : handler macs n handle c.device c.time (some s) c.data c.len (fun _ => 0) = (some s1, m, fun j => ls.getD j 0) := by
      unfold handler
      simp only [range_zero]
      rw [show ({ data := c.data, length := c.len, time := c.time, device := c.device } : Packet) = pkt c from rfl, h3]
      simp only
      rw [show emitAll macs n c.data = emitAll macs n (pkt c).data from rfl, h5]
    obtain ⟨h7, h8⟩ := ih s1 s2 os h4 hf.2 (fun c hc => hd c (by simp [hc]))
    refine ⟨?_, ?_⟩
    · simp only [after, e]; exact h7
    · simp only [results, e]
      exact .cons h6 h8

theorem forall₂_filter {R : Call Mem × Mem × (Nat → Nat) → List Out → Prop} (i : Nat) :
    ∀ {rs : List (Call Mem × Mem × (Nat → Nat))} {outs : List (List Out)}, List.Forall₂ R rs outs →
      List.Forall₂ R (rs.filter fun r => r.1.device == i)
        ((((rs.map fun r => pkt r.1).zip outs).filter fun x => x.1.device == i).map Prod.snd) := by
  intro rs outs h
  induction h with
  | nil => exact .nil
  | @cons r o rs os hr _ ih =>
    simp only [List.map_cons, List.zip_cons_cons, List.filter_cons]
    have : (pkt r.1).device = r.1.device := rfl
    rw [this]
    split
    · exact .cons hr ih
    · exact ih

theorem mono_calls : ∀ (cs : List (Call Mem)) (t : Nat), (∀ c ∈ cs, t ≤ c.time) →
    cs.Pairwise (fun a b => a.time ≤ b.time) → MonoFrom t (cs.map pkt) := by
  intro cs
  induction cs with
  | nil => intro _ _ _; trivial
  | cons c cs ih =>
    intro t ht hp
    rw [List.pairwise_cons] at hp
    exact ⟨ht c (by simp), ih c.time (fun d hd => hp.1 d hd) hp.2⟩

theorem nf_machine (hn : 2 ≤ n) (h1 : macs.endpoint.length = n) (h2 : macs.device.length = n) {s0 : S}
    {Spec : List Packet → List (List Out) → Prop}
    (hlen : ∀ s p s' o, handle s p = some (s', o) → p.length < 2 ^ 16 → ∀ x ∈ o, lengthOf x < 2 ^ 16)
    (hspec : ∀ ps, MonoFrom 0 ps → (∀ p ∈ ps, p.time < timeMax ∧ p.device < n) →
      ∃ s' outs, Nf.Low.run handle s0 ps = some (s', outs) ∧ Spec ps outs ∧ List.Forall₂ (Sensible n) ps outs)
    {t0 : Nat} {buf : Nat → Nat → Mem} {m : Verif.Machine.St (Option S) Mem}
    (hs : Verif.Machine.Steps n (handler macs n handle) (Verif.Machine.start (some s0) t0 buf) m) (ht : m.now < timeMax) :
    ∃ ps outs, MonoFrom 0 ps ∧ (∀ p ∈ ps, p.time < timeMax ∧ p.device < n) ∧ Spec ps outs ∧ (∃ s, m.nf = some s) ∧
      Done macs n m ps outs := by
  have hb := handler_bounded (macs := macs) (n := n) hlen
  obtain ⟨calls, inv⟩ := inv_steps hn hb hs
  have hm := mono_calls calls 0 (fun _ _ => Nat.zero_le _) inv.order
  have hd : ∀ p ∈ calls.map pkt, p.time < timeMax ∧ p.device < n := by
    intro p hp
    obtain ⟨c, hc, rfl⟩ := List.mem_map.mp hp
    exact ⟨Nat.lt_of_le_of_lt (inv.now c hc).2 ht, inv.devices c hc⟩
  obtain ⟨s', outs, h3, h4, h5⟩ := hspec _ hm hd
  obtain ⟨h6, h7⟩ := results_run h1 h2 calls s0 s' outs h3 h5 inv.devices
  refine ⟨calls.map pkt, outs, hm, hd, h4, ⟨s', by rw [inv.nf, h6]⟩, fun i hi => ?_⟩
  have e : from_ i (calls.map pkt) = (ofDevice i calls).map pkt := by
    unfold from_ ofDevice
    rw [List.filter_map]; rfl
  refine ⟨?_, fun hid => ?_, fun d hdn hne => ?_⟩
  · rw [e, List.map_map]
    exact inv_received hn inv i
  · rw [e, List.map_map]
    exact inv_waits hn inv i hid
  · have hj := ((C49_indices_one_to_one n i hi).1 d hdn hne).1
    have h8 := inv_sent hb inv i _ hj
    have h9 := forall₂_filter i h7
    have e : ((results (handler macs n handle) (some s0) calls).map fun r => pkt r.1) = calls.map pkt := by
      conv_rhs => rw [← results_calls (handler macs n handle) (some s0) calls]
      rw [List.map_map]; rfl
    rw [e] at h9
    change List.Forall₂ _ _ (asked i (calls.map pkt) outs) at h9
    have hl9 := h9.length_eq
    have hlr : (resultsOf (handler macs n handle) (some s0) calls i).length = (asked i (calls.map pkt) outs).length := by
      rw [← hl9]; simp [resultsOf]
    have h8l := h8.length_le
    rw [List.length_map] at h8l
    refine ⟨((m.agents i).sent (indexFromDevice i d)).length, by omega, fun hid hq => ?_, ?_⟩
    · rw [(inv_idle hn hb inv i _ hj hid.1 hid.2 hq).2, List.length_map, hlr]
    rw [List.prefix_iff_eq_take] at h8
    rw [List.forall₂_iff_get]
    refine ⟨by rw [List.length_take]; omega, fun x hx hx' => ?_⟩
    rw [List.forall₂_iff_get] at h9
    have hxr : x < ((results (handler macs n handle) (some s0) calls).filter fun r => r.1.device == i).length := by
      rw [hl9]; omega
    have h10 := h9.2 x hxr (by omega)
    simp only [List.get_eq_getElem] at h10 ⊢
    have hdev : (((results (handler macs n handle) (some s0) calls).filter fun r => r.1.device == i)[x]).1.device = i := by
      have := List.of_mem_filter (List.getElem_mem hxr)
      simpa using this
    have h11 := h10 d hdn (by rw [hdev]; exact hne)
    rw [hdev] at h11
    have e2 : ((m.agents i).sent (indexFromDevice i d))[x] =
        ((((results (handler macs n handle) (some s0) calls).filter fun r => r.1.device == i)[x]).2.1,
         (((results (handler macs n handle) (some s0) calls).filter fun r => r.1.device == i)[x]).2.2 (indexFromDevice i d)) := by
      have : ((m.agents i).sent (indexFromDevice i d))[x]? =
          ((resultsOf (handler macs n handle) (some s0) calls i).map fun o => (o.1, o.2 (indexFromDevice i d)))[x]? := by
        rw [h8, List.getElem?_take, if_pos hx']
      rw [List.getElem?_eq_getElem hx', List.getElem?_map] at this
      unfold resultsOf at this
      rw [List.getElem?_map, List.getElem?_eq_getElem hxr] at this
      simpa using this
    rw [e2, List.getElem_take]
    exact h11

theorem forall₂_imp {A B : Type} {R : A → B → Prop} {R' : A → B → Prop} {l : List A} {l' : List B}
    (h : List.Forall₂ R l l') (hi : ∀ a ∈ l, ∀ b, R a b → R' a b) : List.Forall₂ R' l l' := by
  induction h with
  | nil => exact .nil
  | cons hr _ ih => exact .cons (hi _ (by simp) _ hr) (ih fun a ha => hi a (by simp [ha]))

theorem sensible_other {p : Packet} (hp : p.device < 2) {o : List Out} {u : Bool}
    (h : o = [] ∨ o = [Out.transmit p (1 - p.device) u]) : Sensible 2 p o := by
  rcases h with rfl | rfl
  · trivial
  · exact ⟨rfl, by omega, by omega⟩

theorem run_append {S : Type} {handle : S → Packet → Option (S × List Out)} : ∀ (xs ys : List Packet) (s s' : S)
    (os : List (List Out)), Nf.Low.run handle s (xs ++ ys) = some (s', os) →
      ∃ t o1 o2, Nf.Low.run handle s xs = some (t, o1) ∧ Nf.Low.run handle t ys = some (s', o2) ∧ os = o1 ++ o2 ∧
        o1.length = xs.length := by
  intro xs
  induction xs with
  | nil => intro ys s s' os h; exact ⟨s, [], os, rfl, h, rfl, rfl⟩
  | cons x xs ih =>
    intro ys s s' os h
    simp only [List.cons_append, Nf.Low.run, Option.bind_eq_bind, Option.bind_eq_some_iff] at h
    obtain ⟨⟨s1, o⟩, h1, ⟨s2, os'⟩, h2, h⟩ := h
    cases h
    obtain ⟨t, o1, o2, h3, h4, rfl, h5⟩ := ih ys s1 s2 os' h2
    exact ⟨t, o :: o1, o2, by simp [Nf.Low.run, h1, h3], h4, rfl, by simp [h5]⟩

/-! #### Lengths of the requests -/

theorem firewall_lengths (l : Nf.Low.Layout) (ext : Nat) (s : Nf.Low.State) (p : Packet) (s' : Nf.Low.State) (o : List Out)
    (h : Nf.Low.Firewall.handle l ext s p = some (s', o)) (hp : p.length < 2 ^ 16) : ∀ x ∈ o, lengthOf x < 2 ^ 16 := by
  unfold Nf.Low.Firewall.handle at h
  dsimp only at h
  split at h
  · cases h; simp
  split at h
  · cases h; simp
  split at h
  · simp only [Option.bind_eq_bind, Option.bind_eq_some_iff] at h
    obtain ⟨⟨s1, ok⟩, _, h⟩ := h
    dsimp only at h
    split at h <;> · cases h; first | simp; done | simpa [lengthOf] using hp
  · simp only [Option.bind_eq_bind, Option.bind_eq_some_iff] at h
    obtain ⟨s1, _, h⟩ := h
    cases h; simpa [lengthOf] using hp

theorem nat_lengths (l : Nf.Low.Layout) (c : Nf.NatNf.Config) (s : Nf.Low.State) (p : Packet) (s' : Nf.Low.State) (o : List Out)
    (h : Nf.Low.NatNf.handle l c s p = some (s', o)) (hp : p.length < 2 ^ 16) : ∀ x ∈ o, lengthOf x < 2 ^ 16 := by
  unfold Nf.Low.NatNf.handle at h
  dsimp only at h
  split at h
  · cases h; simp
  split at h
  · cases h; simp
  split at h
  · simp only [Option.bind_eq_bind, Option.bind_eq_some_iff] at h
    obtain ⟨⟨s1, r⟩, _, h⟩ := h
    cases r with
    | none => cases h; simp
    | some f =>
      dsimp only at h
      split at h <;> · cases h; first | simp; done | simpa [lengthOf] using hp
  · simp only [Option.bind_eq_bind, Option.bind_eq_some_iff] at h
    obtain ⟨⟨s1, r⟩, _, h⟩ := h
    cases r <;> · cases h; first | simp; done | simpa [lengthOf] using hp

theorem policer_lengths (l : Nf.Low.Layout) (c : Nf.Policer.Config) (s : Nf.Low.Policer.State) (p : Packet)
    (s' : Nf.Low.Policer.State) (o : List Out)
    (h : Nf.Low.Policer.handle l c s p = some (s', o)) (hp : p.length < 2 ^ 16) : ∀ x ∈ o, lengthOf x < 2 ^ 16 := by
  unfold Nf.Low.Policer.handle at h
  dsimp only at h
  split at h
  · cases h; simp
  split at h
  · simp only [Option.bind_eq_bind, Option.bind_eq_some_iff] at h
    obtain ⟨⟨s1, r⟩, _, h⟩ := h
    cases r <;> · cases h; first | simp; done | simpa [lengthOf] using hp
  · cases h; simpa [lengthOf] using hp

theorem maglev_lengths (l : Nf.Low.Layout) (n : Nat) (s : Nf.Low.Maglev.Balancer) (p : Packet)
    (s' : Nf.Low.Maglev.Balancer) (o : List Out)
    (h : Nf.Low.Maglev.handle l n s p = some (s', o)) (hp : p.length < 2 ^ 16) : ∀ x ∈ o, lengthOf x < 2 ^ 16 := by
  unfold Nf.Low.Maglev.handle at h
  dsimp only at h
  split at h
  · cases h; simp
  split at h
  · cases h; simp
  split at h
  · simp only [Option.bind_eq_bind, Option.bind_eq_some_iff] at h
    obtain ⟨s1, _, h⟩ := h
    cases h; simp
  · simp only [Option.bind_eq_bind, Option.bind_eq_some_iff] at h
    obtain ⟨⟨s1, r⟩, _, h⟩ := h
    cases r <;> · cases h; first | simp; done | simpa [lengthOf] using hp

theorem stpUpdated_lengths {st st' : Nf.Bridge.Stp} {p : Packet} {o : List Out}
    (h : Nf.Bridge.stpUpdated st p = some (st', o)) (hp : p.length < 2 ^ 16) : ∀ x ∈ o, lengthOf x < 2 ^ 16 := by
  unfold Nf.Bridge.stpUpdated at h
  split at h
  · cases h; simpa [lengthOf] using hp
  · cases h

theorem bridge_lengths (l : Nf.Low.Layout) (s : Nf.Low.Bridge.State) (p : Packet)
    (s' : Nf.Low.Bridge.State) (o : List Out)
    (h : Nf.Low.Bridge.handle l s p = some (s', o)) (hp : p.length < 2 ^ 16) : ∀ x ∈ o, lengthOf x < 2 ^ 16 := by
  unfold Nf.Low.Bridge.handle at h
  simp only [Option.bind_eq_bind, Option.bind_eq_some_iff] at h
  obtain ⟨⟨st, r⟩, h1, h⟩ := h
  cases r with
  | some outs =>
    cases h
    unfold Nf.Bridge.stpHandle at h1
    split at h1
    · cases h1; simp [lengthOf]
    split at h1
    · cases h1
    rw [Option.map_eq_some_iff] at h1
    obtain ⟨⟨st2, os⟩, h1, e⟩ := h1
    cases e
    unfold Nf.Bridge.stpBpdu at h1
    dsimp only at h1
    split at h1
    · split at h1
      · cases h1; simp
      · cases h1
    split at h1
    · exact stpUpdated_lengths h1 hp
    split at h1
    · exact stpUpdated_lengths h1 hp
    split at h1
    · exact stpUpdated_lengths h1 hp
    · cases h1; simp
  | none =>
    simp only [Nf.Low.Bridge.handleData, Option.bind_eq_bind, Option.bind_eq_some_iff] at h
    obtain ⟨⟨tb, ds⟩, _, outs, h2, h⟩ := h
    cases h
    unfold Nf.Low.Bridge.forward at h2
    simp only [Option.bind_eq_bind, Option.bind_eq_some_iff] at h2
    obtain ⟨r, _, h2⟩ := h2
    cases r with
    | none => cases h2; simpa [lengthOf] using hp
    | some i =>
      simp only [Option.bind_eq_some_iff] at h2
      obtain ⟨d, _, h2⟩ := h2
      split at h2 <;> · cases h2; first | simp; done | simpa [lengthOf] using hp

/-! #### Requests are sensible -/

theorem firewall_sensible (size ext exp : Nat) : ∀ (ps : List Packet) (s : GMap Flow Nat), (∀ p ∈ ps, p.device < 2) →
    List.Forall₂ (Sensible 2) ps (FirewallSpec.outputs size ext exp s ps) := by
  intro ps
  induction ps with
  | nil => intro s _; exact .nil
  | cons p ps ih =>
    intro s hp
    refine .cons (sensible_other (u := false) (hp p (by simp)) ?_) (ih _ fun q hq => hp q (by simp [hq]))
    split
    · exact .inr rfl
    · exact .inl rfl

theorem nat_sensible {c : NatSpec.Config} {s t : NatSpec.State} {ps : List Packet} {outs : List (List Out)}
    (h : NatSpec.Run c s ps outs t) (hp : ∀ p ∈ ps, p.device < 2) : List.Forall₂ (Sensible 2) ps outs := by
  induction h with
  | nil => exact .nil
  | @cons s s' s'' p o ps os hs _ ih =>
    have hd := hp p (by simp)
    refine .cons ?_ (ih fun q hq => hp q (by simp [hq]))
    have go : ∀ q : Packet, q.device = p.device → Sensible 2 p [.transmit q (1 - p.device) true] :=
      fun q hq => ⟨hq, by omega, by omega⟩
    cases hs with
    | other => trivial
    | known q _ _ _ h => exact go q h.2.2.2.2.2.2.2.1
    | new q port _ _ _ _ _ h => exact go q h.2.2.2.2.2.2.2.1
    | full => trivial
    | deliver q f _ _ _ _ _ h => exact go q h.2.2.2.2.2.2.1
    | spoof => trivial
    | unknown => trivial

theorem bridge_sensible {c : BridgeSpec.Config} {s t : BridgeSpec.State} {ps : List Packet} {outs : List (List Out)}
    (h : BridgeSpec.Run c s ps outs t) (hp : ∀ p ∈ ps, p.device < c.devices) (hb : s.blocked.length = c.devices)
    (hport : ∀ a d, s.port a = some d → d < c.devices) : List.Forall₂ (Sensible c.devices) ps outs := by
  induction h with
  | nil => exact .nil
  | @cons s s' s'' p o ps os hs _ ih =>
    have hd := hp p (by simp)
    have hp' : ∀ q ∈ ps, q.device < c.devices := fun q hq => hp q (by simp [hq])
    cases hs with
    | data outs _ hf =>
      have hl : (BridgeSpec.learn c s p).blocked.length = c.devices := by
        unfold BridgeSpec.learn; split <;> exact hb
      have hpl : ∀ a d, (BridgeSpec.learn c s p).port a = some d → d < c.devices := by
        intro a d h
        unfold BridgeSpec.learn at h
        split at h
        · exact hport a d h
        · dsimp only at h
          split at h
          · cases h; exact hd
          · exact hport a d h
      refine .cons ?_ (ih hp' hl hpl)
      cases hf with
      | known d h hne => exact ⟨rfl, hpl _ _ h, hne⟩
      | here => trivial
      | unknown => exact ⟨rfl, hl⟩
    | periodic q _ hq => exact .cons hq.1 (ih hp' hb hport)
    | worse => exact .cons trivial (ih hp' (by simpa using hb) hport)
    | better q _ hq => exact .cons hq.1 (ih hp' (by simpa using hb) hport)
    | ignored => exact .cons trivial (ih hp' hb hport)

theorem maglev_sensible {n bexp : Nat} {choose : Flow → (Nat → Bool) → Option Nat} : ∀ (ps : List Packet)
    (outs : List (List Out)) (beat : Nat → Option Nat), BalanceOk n bexp choose beat ps outs →
      List.Forall₂ (Sensible n) ps outs := by
  intro ps
  induction ps with
  | nil => intro outs beat h; cases h; exact .nil
  | cons p ps ih =>
    intro outs beat h
    obtain ⟨o, os, rfl, h1, h2, h3⟩ := h
    refine .cons ?_ (ih os _ h3)
    by_cases hc : MaglevSpec.isClient n p
    · rcases h2 hc with ⟨rfl, _⟩ | ⟨b, rfl, hb, _⟩
      · trivial
      · have := hc.2
        exact ⟨rfl, by omega, by omega⟩
    · rw [h1 hc]; trivial

/-! #### The packets that the firewall lets in -/

theorem lastUse_mem {ext : Nat} {f : Flow} : ∀ {tr : List (Packet × List Out)} {t : Nat}, lastUse ext f tr = some t →
    ∃ (k : Nat) (p : Packet) (o : List Out), tr[k]? = some (p, o) ∧ isTcpUdp p ∧
      ((p.device ≠ ext ∧ flow p = f) ∨ (p.device = ext ∧ o ≠ [] ∧ reverse (flow p) = f)) := by
  intro tr
  induction tr with
  | nil => intro t h; cases h
  | cons x tr ih =>
    intro t h
    obtain ⟨p, o⟩ := x
    simp only [lastUse] at h
    split at h
    · rename_i h1
      obtain ⟨k, p', o', h2, h3⟩ := ih h1
      exact ⟨k + 1, p', o', by simpa using h2, h3⟩
    · split at h
      · rename_i hc; exact ⟨0, p, o, rfl, hc.1, hc.2⟩
      · cases h

end MachineNf
open MachineNf

namespace MachineSpec

/-- Contents and length as a packet, to speak of its headers. -/
def packetOf (w : Mem × Nat) : Packet := { data := w.1, length := w.2, time := 0, device := 0 }

end MachineSpec

/-- Whatever is true of the packets and requests of a network function in every run on packets at times that do not
decrease is true on the whole machine of some such sequence, of which the packets of each device are those received there and
the requests those sent. The network function makes at most one request for a packet, for other devices that exist, and does
not make packets longer than a descriptor can say. -/
theorem C72_carries_over {S : Type} {macs : Macs} {n : Nat} {handle : S → Packet → Option (S × List Out)} (hn : 2 ≤ n)
    (h1 : macs.endpoint.length = n) (h2 : macs.device.length = n) {s0 : S} {Spec : List Packet → List (List Out) → Prop}
    (hlen : ∀ s p s' o, handle s p = some (s', o) → p.length < 2 ^ 16 → ∀ x ∈ o, lengthOf x < 2 ^ 16)
    (hspec : ∀ ps, MonoFrom 0 ps → (∀ p ∈ ps, p.time < timeMax ∧ p.device < n) →
      ∃ s' outs, Nf.Low.run handle s0 ps = some (s', outs) ∧ Spec ps outs ∧ List.Forall₂ (Sensible n) ps outs)
    {t0 : Nat} {buf : Nat → Nat → Mem} {m : Machine.St (Option S) Mem}
    (hs : Machine.Steps n (Nf.Machine.handler macs n handle) (Machine.start (some s0) t0 buf) m) (ht : m.now < timeMax) :
    ∃ ps outs, MonoFrom 0 ps ∧ (∀ p ∈ ps, p.time < timeMax ∧ p.device < n) ∧ Spec ps outs ∧ (∃ s, m.nf = some s) ∧
      Done macs n m ps outs :=
  nf_machine hn h1 h2 hlen hspec hs ht

/-- What the firewall must do, on the whole machine: the packets received at the two devices,
taken in some order at times that do not decrease, are sent as C42 prescribes. -/
theorem C72_firewall {macs : Macs} (h1 : macs.endpoint.length = 2) (h2 : macs.device.length = 2) {l : Nf.Low.Layout} (hl : Placed l 16)
    {mem : Mem} {exp ext : Nat} {s0 : Nf.Low.State} (h0 : Nf.Low.alloc l mem exp = some s0) {t0 : Nat} {buf : Nat → Nat → Mem}
    {m : Machine.St (Option Nf.Low.State) Mem}
    (hs : Machine.Steps 2 (Nf.Machine.handler macs 2 (Nf.Low.Firewall.handle l ext)) (Machine.start (some s0) t0 buf) m)
    (ht : m.now < timeMax) :
    ∃ ps, MonoFrom 0 ps ∧ (∀ p ∈ ps, p.time < timeMax ∧ p.device < 2) ∧ (∃ s, m.nf = some s) ∧
      Done macs 2 m ps (FirewallSpec.outputs l.size ext exp [] ps) := by
  obtain ⟨ps, outs, g1, g2, rfl, g4, g5⟩ := nf_machine (by omega) h1 h2
    (Spec := fun ps outs => outs = FirewallSpec.outputs l.size ext exp [] ps) (firewall_lengths l ext)
    (fun ps hm hp => by
      obtain ⟨s, s', k1, k2⟩ := C71_firewall l hl mem exp ext ps hm hp
      rw [h0] at k1; cases k1
      exact ⟨s', _, k2, rfl, firewall_sensible _ _ _ ps _ fun p h => (hp p h).2⟩) hs ht
  exact ⟨ps, g1, g2, g4, g5⟩

/-- A packet that the firewall sends from the external to the internal device was received
as it is at the external device, and a packet of the reversed flow was received at the
internal device. In the other direction, too, only packets that were received are sent. -/
theorem C72_firewall_unsolicited {macs : Macs} (h1 : macs.endpoint.length = 2) (h2 : macs.device.length = 2) {l : Nf.Low.Layout}
    (hl : Placed l 16) {mem : Mem} {exp ext : Nat} (he : ext < 2) {s0 : Nf.Low.State} (h0 : Nf.Low.alloc l mem exp = some s0)
    {t0 : Nat} {buf : Nat → Nat → Mem} {m : Machine.St (Option Nf.Low.State) Mem}
    (hs : Machine.Steps 2 (Nf.Machine.handler macs 2 (Nf.Low.Firewall.handle l ext)) (Machine.start (some s0) t0 buf) m)
    (ht : m.now < timeMax) :
    (∀ w ∈ (m.agents ext).sent 0, w.2 ≠ 0 → w ∈ (m.agents ext).received ∧ isTcpUdp (packetOf w) ∧
      ∃ q ∈ (m.agents (1 - ext)).received, isTcpUdp (packetOf q) ∧ flow (packetOf q) = reverse (flow (packetOf w))) ∧
    ∀ w ∈ (m.agents (1 - ext)).sent 0, w.2 ≠ 0 → w ∈ (m.agents (1 - ext)).received := by
  obtain ⟨ps, outs, -, g2, ⟨gl, g3⟩, g4, g5⟩ := nf_machine (by omega) h1 h2
    (Spec := fun ps outs => outs.length = ps.length ∧ ∀ (n : Nat) (p : Packet) (o : List Out), ps[n]? = some p → outs[n]? = some o →
        (o = [] ∨ o = [Out.transmit p (1 - p.device) false]) ∧
        (¬ isTcpUdp p → o = []) ∧ (isTcpUdp p → p.device ≠ ext → o ≠ []) ∧
        (isTcpUdp p → p.device = ext → o ≠ [] →
          ∃ t, lastUse ext (reverse (flow p)) ((ps.zip outs).take n) = some t ∧ p.time ≤ t + exp)) (firewall_lengths l ext)
    (fun ps hm hp => by
      obtain ⟨s, s', outs, k1, k2, k3, k4⟩ := C71_firewall_solicited l hl mem exp ext ps hp
      rw [h0] at k1; cases k1
      refine ⟨s', outs, k2, ⟨k3, k4⟩, ?_⟩
      rw [List.forall₂_iff_get]
      refine ⟨k3.symm, fun i hi hi' => ?_⟩
      exact sensible_other (hp _ (List.get_mem ..)).2
        (k4 i _ _ (by rw [List.getElem?_eq_getElem hi]; rfl) (by rw [List.getElem?_eq_getElem hi']; rfl)).1) hs ht
  have sent : ∀ i < 2, ∀ w ∈ (m.agents i).sent 0, w.2 ≠ 0 → ∃ (k : Nat) (p : Packet) (o : List Out), ps[k]? = some p ∧ outs[k]? = some o ∧ o ≠ [] ∧
      p.device = i ∧ w = (p.data, p.length) ∧ w ∈ (m.agents i).received := by
    intro i hi w hw hne
    obtain ⟨r, -, hd⟩ := g5 i hi
    obtain ⟨k, -, -, hf⟩ := hd (1 - i) (by omega) (by omega)
    have hidx : indexFromDevice i (1 - i) = 0 := by
      unfold indexFromDevice; split <;> omega
    rw [hidx] at hf
    obtain ⟨x, hx, rfl⟩ := List.getElem_of_mem hw
    rw [List.forall₂_iff_get] at hf
    have hx' : x < ((asked i ps outs).take k).length := by rw [hf.1]; exact hx
    have hle := hf.2 x hx' hx
    simp only [List.get_eq_getElem] at hle
    have hmem := List.mem_of_mem_take (List.getElem_mem hx')
    replace hmem : ((asked i ps outs).take k)[x] ∈ ((ps.zip outs).filter fun x => x.1.device == i).map Prod.snd := hmem
    obtain ⟨⟨p, o⟩, hpo, e⟩ := List.mem_map.mp hmem
    rw [← e] at hle
    rw [List.mem_filter] at hpo
    obtain ⟨hz, hdev⟩ := hpo
    have hdev : p.device = i := by simpa using hdev
    obtain ⟨k, hk, e⟩ := List.getElem_of_mem hz
    have hk' : (ps.zip outs)[k]? = some (p, o) := by rw [List.getElem?_eq_getElem hk, e]
    rw [List.getElem?_zip_eq_some] at hk'
    have ho := (g3 k p o hk'.1 hk'.2).1
    have hon : o ≠ [] := by
      rintro rfl
      exact hne hle
    have ho : o = [Out.transmit p (1 - p.device) false] := ho.resolve_left hon
    have hw : ((m.agents i).sent 0)[x] = (p.data, p.length) := by
      rw [ho, hdev] at hle
      unfold Leaves at hle
      dsimp only at hle
      rw [if_pos rfl] at hle
      exact Prod.ext (hle.2.1 rfl) hle.1
    refine ⟨k, p, o, hk'.1, hk'.2, hon, hdev, hw, ?_⟩
    rw [hw]
    refine r.subset (List.mem_map.mpr ⟨p, ?_, rfl⟩)
    exact List.mem_filter.mpr ⟨List.mem_of_getElem? hk'.1, by simp [hdev]⟩
  have tcp : ∀ (k : Nat) (p : Packet) (o : List Out), ps[k]? = some p → outs[k]? = some o → o ≠ [] → isTcpUdp p := by
    intro k p o hk ho hne
    exact Decidable.byContradiction fun hc => hne ((g3 k p o hk ho).2.1 hc)
  have origin : ∀ n f t, lastUse ext f ((ps.zip outs).take n) = some t →
      ∃ q ∈ ps, q.device ≠ ext ∧ isTcpUdp q ∧ flow q = f := by
    intro n
    induction n using Nat.strong_induction_on with
    | _ n ih =>
      intro f t h
      obtain ⟨k, p, o, hk, ht, hc⟩ := lastUse_mem h
      rw [List.getElem?_take] at hk
      split at hk
      swap
      · cases hk
      rename_i hkn
      rw [List.getElem?_zip_eq_some] at hk
      rcases hc with ⟨hd, hf⟩ | ⟨hd, hne, hf⟩
      · exact ⟨p, List.mem_of_getElem? hk.1, hd, ht, hf⟩
      · obtain ⟨t', h', _⟩ := (g3 k p o hk.1 hk.2).2.2.2 ht hd hne
        rw [hf] at h'
        exact ih k hkn f t' h'
  refine ⟨fun w hw hne => ?_, fun w hw hne => ?_⟩
  · obtain ⟨k, p, o, hk, ho, hon, hdev, rfl, hr⟩ := sent ext he w hw hne
    have htu := tcp k p o hk ho hon
    obtain ⟨t, h', _⟩ := (g3 k p o hk ho).2.2.2 htu hdev hon
    obtain ⟨q, hq, hqd, hqt, hqf⟩ := origin _ _ _ h'
    refine ⟨hr, htu, (q.data, q.length), ?_, hqt, hqf⟩
    refine (g5 (1 - ext) (by omega)).1.subset (List.mem_map.mpr ⟨q, ?_, rfl⟩)
    have := (g2 q hq).2
    exact List.mem_filter.mpr ⟨hq, by simp; omega⟩
  · obtain ⟨k, p, o, _, _, _, _, _, hr⟩ := sent (1 - ext) (by omega) w hw hne
    exact hr

/-- The NAT on the whole machine, with the bound on the number of flows that C43 needs. -/
theorem C72_nat_partial {macs : Macs} (h1 : macs.endpoint.length = 2) (h2 : macs.device.length = 2) {l : Nf.Low.Layout} (hl : Placed l 16)
    {mem : Mem} {exp : Nat} {c : Nf.NatNf.Config} (hea : c.externalAddr < 2 ^ 32) (hsp : c.startPort < 65536)
    (hsize : l.size ≤ 65536) (port0 : Flow → Nat) {s0 : Nf.Low.State} (h0 : Nf.Low.alloc l mem exp = some s0) {t0 : Nat}
    {buf : Nat → Nat → Mem} {m : Machine.St (Option Nf.Low.State) Mem}
    (hs : Machine.Steps 2 (Nf.Machine.handler macs 2 (Nf.Low.NatNf.handle l c)) (Machine.start (some s0) t0 buf) m)
    (ht : m.now < timeMax) :
    ∃ ps outs, MonoFrom 0 ps ∧ (∀ p ∈ ps, p.time < timeMax ∧ p.device < 2) ∧
      (∃ t, NatSpec.Run (natConfig c l.size exp) ⟨[], port0⟩ ps outs t) ∧ (∃ s, m.nf = some s) ∧ Done macs 2 m ps outs :=
  nf_machine (by omega) h1 h2 (nat_lengths l c)
    (fun ps hm hp => by
      obtain ⟨s, s', outs, t, k1, k2, k3⟩ := C71_nat_partial l hl mem exp c ps hea hsp hsize hm hp port0
      rw [h0] at k1; cases k1
      exact ⟨s', outs, k2, ⟨t, k3⟩, nat_sensible k3 fun p h => (hp p h).2⟩) hs ht

/-- The policer on the whole machine; the limit is that of C45, for packets handled in a row. -/
theorem C72_policer {macs : Macs} (h1 : macs.endpoint.length = 2) (h2 : macs.device.length = 2) {l : Nf.Low.Layout} (hl : Placed l 4)
    {mem : Mem} {c : Nf.Policer.Config} {s0 : Nf.Low.Policer.State} (h0 : Nf.Low.Policer.init l mem c = some s0) {t0 : Nat}
    {buf : Nat → Nat → Mem} {m : Machine.St (Option Nf.Low.Policer.State) Mem}
    (hs : Machine.Steps 2 (Nf.Machine.handler macs 2 (Nf.Low.Policer.handle l c)) (Machine.start (some s0) t0 buf) m)
    (ht : m.now < timeMax) :
    ∃ ps outs, MonoFrom 0 ps ∧ (∀ p ∈ ps, p.time < timeMax ∧ p.device < 2) ∧
      (List.Forall₂ (fun p o => (o = [] ∨ o = [Out.transmit p (1 - p.device) false]) ∧ (¬ isIpv4 p → o = []) ∧
          (isIpv4 p → p.device ≠ c.wanDevice → o ≠ [])) ps outs ∧
        (c.rate ∣ c.burst → 1000000000 * c.burst < 2 ^ 64 → ∀ before window : List Packet, ps = before ++ window →
          ∀ a t0 T : Nat, (∀ p ∈ window, t0 ≤ p.time ∧ p.time ≤ t0 + T) →
            policedBytes c.wanDevice a window (outs.drop before.length) ≤ c.burst + c.rate * T)) ∧
      (∃ s, m.nf = some s) ∧ Done macs 2 m ps outs :=
  nf_machine (by omega) h1 h2 (policer_lengths l c)
    (fun ps hm hp => by
      have hrb : 0 < c.rate ∧ 0 < c.burst := by
        unfold Nf.Low.Policer.init at h0
        split at h0
        · cases h0
        · omega
      obtain ⟨s, s', outs, k1, k2, _, k3⟩ := C71_policer l hl mem c hrb.1 hrb.2 ps hm hp
      rw [h0] at k1; cases k1
      refine ⟨s', outs, k2, ⟨k3, ?_⟩, forall₂_imp k3 fun p hpm o ho => sensible_other (hp p hpm).2 ho.1⟩
      rintro hdvd hexp before window rfl a t0 T hT
      obtain ⟨t, o1, o2, r1, r2, rfl, r3⟩ := run_append before window _ _ _ k2
      rw [← r3, List.drop_left]
      exact C71_policer_rate_partial l hl mem c hdvd hexp before window _ _ _ _ _ a t0 T hm hp hT h0 r1 r2) hs ht

/-- The bridge on the whole machine, with any number of devices. -/
theorem C72_bridge {macs : Macs} {c : BridgeSpec.Config} (h1 : macs.endpoint.length = c.devices) (h2 : macs.device.length = c.devices)
    {l : Nf.Low.Layout} (hl : Placed l 6) {mem : Mem} (hc : c.size = l.size) {bid : Nat} (hn : 2 ≤ c.devices)
    {s0 : Nf.Low.Bridge.State} (h0 : Nf.Low.Bridge.init l mem c.devices bid c.exp c.updateTime = some s0) {t0 : Nat}
    {buf : Nat → Nat → Mem} {m : Machine.St (Option Nf.Low.Bridge.State) Mem}
    (hs : Machine.Steps c.devices (Nf.Machine.handler macs c.devices (Nf.Low.Bridge.handle l)) (Machine.start (some s0) t0 buf) m)
    (ht : m.now < timeMax) :
    ∃ ps outs, MonoFrom 0 ps ∧ (∀ p ∈ ps, p.time < timeMax ∧ p.device < c.devices) ∧
      (∃ t, BridgeSpec.Run c (bridgeStart c) ps outs t) ∧ (∃ s, m.nf = some s) ∧ Done macs c.devices m ps outs :=
  nf_machine hn h1 h2 (bridge_lengths l)
    (fun ps hm hp => by
      obtain ⟨s, s', outs, t, k1, k2, k3⟩ := C71_bridge l hl mem c hc bid ps hn hm hp
      rw [h0] at k1; cases k1
      exact ⟨s', outs, k2, ⟨t, k3⟩, bridge_sensible k3 (fun p h => (hp p h).2) (by simp [bridgeStart]) (by simp [bridgeStart])⟩) hs ht

/-- The balancer on the whole machine, under the conditions of C47. -/
theorem C72_maglev_partial {macs : Macs} {n : Nat} (h1 : macs.endpoint.length = n) (h2 : macs.device.length = n)
    {l : Nf.Low.Layout} (hl : Placed l 16) {mem : Mem} {fexp bexp h : Nat} (hn : 2 ≤ n) (hcap : n - 1 < h) (hh : h < 40000)
    (hco : ∀ s, 1 ≤ s → s ≤ n - 1 → Nat.Coprime h s)
    {s0 : Nf.Low.Maglev.Balancer} (h0 : Nf.Low.Maglev.init l mem n fexp bexp h = some s0) {t0 : Nat}
    {buf : Nat → Nat → Mem} {m : Machine.St (Option Nf.Low.Maglev.Balancer) Mem}
    (hs : Machine.Steps n (Nf.Machine.handler macs n (Nf.Low.Maglev.handle l n)) (Machine.start (some s0) t0 buf) m)
    (ht : m.now < timeMax) :
    ∃ ps outs, MonoFrom 0 ps ∧ (∀ p ∈ ps, p.time < timeMax ∧ p.device < n) ∧
      (∃ choose, BalanceOk n bexp choose (fun _ => none) ps outs) ∧ (∃ s, m.nf = some s) ∧ Done macs n m ps outs :=
  nf_machine hn h1 h2 (maglev_lengths l n)
    (fun ps _ hp => by
      obtain ⟨s, choose, k1, k2⟩ := C71_maglev_partial l hl mem n fexp bexp h hn hcap hh hco
      rw [h0] at k1; cases k1
      obtain ⟨s', outs, k3, k4⟩ := k2 ps fun p h => (hp p h).1
      exact ⟨s', outs, k3, ⟨choose, k4⟩, maglev_sensible ps outs _ k4⟩) hs ht

/-! ### Examples -/

namespace MachineExample
open Verif.Machine

variable {σ : Type} {n : Nat} {h : Handler σ Mem}

/-- Steps of the processor. -/
def runs (n : Nat) (h : Handler σ Mem) : Nat → St σ Mem → St σ Mem
  | 0, m => m
  | k + 1, m => runs n h k (runStep n h m)

/-- The card of a device stores a packet. -/
def fill (i : Nat) (d : Mem) (m : St σ Mem) : St σ Mem :=
  let s := m.agents i
  { m with agents := Ixgbe.upd m.agents i { s with buf := Ixgbe.upd s.buf s.rdh d } }

/-- The card says that it has 60 bytes. -/
def complete (i : Nat) (m : St σ Mem) : St σ Mem :=
  let s := m.agents i
  { m with agents := Ixgbe.upd m.agents i { s with
      ring := Ixgbe.upd s.ring 0 (Ixgbe.upd (s.ring 0) s.rdh 0x10000003c)
      rdh := (s.rdh + 1) % Ixgbe.ringSize
      received := s.received ++ [(s.buf s.rdh, Ixgbe.lenOf 0x10000003c)] } }

/-- The card of an output sends what is queued first. -/
def leave (i j : Nat) (m : St σ Mem) : St σ Mem :=
  let s := m.agents i
  { m with agents := Ixgbe.upd m.agents i { s with
      sent := Ixgbe.upd s.sent j (s.sent j ++ [(s.buf (s.tdh j), Ixgbe.lenOf (s.ring j (s.tdh j)))])
      tdh := Ixgbe.upd s.tdh j ((s.tdh j + 1) % Ixgbe.ringSize)
      reported := if (s.ring j (s.tdh j)).getLsbD 27 then Ixgbe.upd s.reported j ((s.tdh j + 1) % Ixgbe.ringSize)
        else s.reported } }

theorem runs_steps {m0 : St σ Mem} (k : Nat) (m : St σ Mem) (hs : Steps n h m0 m) : Steps n h m0 (runs n h k m) := by
  induction k generalizing m with
  | zero => exact hs
  | succ k ih => exact ih _ (hs.step (.run m))

theorem arrive_steps {m0 m : St σ Mem} (i : Nat) (d : Mem) (hi : i < n)
    (hr : (m.agents i).rdh ≠ (m.agents i).rdt) (hs : Steps n h m0 m) : Steps n h m0 (complete i (fill i d m)) :=
  (hs.step (.card m i _ hi (Card.fill (m.agents i) d hr))).step
    (.card (fill i d m) i _ hi (Card.complete _ 0x10000003c (by simpa [fill, Ixgbe.upd] using hr) (by decide)))

theorem leave_steps {m0 m : St σ Mem} (i j : Nat) (hi : i < n) (hj : j < n - 1)
    (hr : (m.agents i).tdh j ≠ (m.agents i).tdt j) (hs : Steps n h m0 m) : Steps n h m0 (leave i j m) :=
  hs.step (.card m i _ hi (Card.send (m.agents i) j hj hr))

def macs : Macs := ⟨[[1, 1, 1, 1, 1, 1], [2, 2, 2, 2, 2, 2]], [[3, 3, 3, 3, 3, 3], [4, 4, 4, 4, 4, 4]]⟩
def place : Nf.Low.Layout := ⟨8192, 16, 4, 0, 4096⟩

/-- The firewall, with external device 1. -/
def fw : Handler (Option Nf.Low.State) Mem := Nf.Machine.handler macs 2 (Nf.Low.Firewall.handle place 1)

theorem allocated : (Nf.Low.alloc place (fun _ => 0) 1000).isSome = true := by decide +kernel

/-- The state after the allocations. -/
def s0 : Nf.Low.State := (Nf.Low.alloc place (fun _ => 0) 1000).get allocated

def m0 : St (Option Nf.Low.State) Mem := start (some s0) 5 fun _ _ _ => 0
/-- A packet has gone out. -/
def m1 : St (Option Nf.Low.State) Mem := leave 0 0 (runs 2 fw 12 (complete 0 (fill 0 (samplePacket 1 2 3 4 0 0).data m0)))
/-- Its reply has come in. -/
def m2 : St (Option Nf.Low.State) Mem := leave 1 0 (runs 2 fw 12 (complete 1 (fill 1 (samplePacket 2 1 4 3 1 9).data m1)))
/-- Another packet has been dropped: nothing is sent for it. -/
def m3 : St (Option Nf.Low.State) Mem := leave 1 0 (runs 2 fw 12 (complete 1 (fill 1 (samplePacket 2 1 4 9 1 9).data m2)))

theorem steps1 : Steps 2 fw m0 m1 :=
  leave_steps 0 0 (by decide) (by decide) (by decide +kernel) (runs_steps 12 _ (arrive_steps 0 _ (by decide) (by decide) .refl))
theorem steps2 : Steps 2 fw m0 m2 :=
  leave_steps 1 0 (by decide) (by decide) (by decide +kernel) (runs_steps 12 _ (arrive_steps 1 _ (by decide) (by decide +kernel) steps1))
theorem steps3 : Steps 2 fw m0 m3 :=
  leave_steps 1 0 (by decide) (by decide) (by decide +kernel) (runs_steps 12 _ (arrive_steps 1 _ (by decide) (by decide +kernel) steps2))

/-- The hypotheses of the theorems about the firewall, in a state where a packet has gone out, its reply has come in and
another packet has been dropped. Both agents wait and nothing is queued. -/
example : macs.endpoint.length = 2 ∧ macs.device.length = 2 ∧ Placed place 16 ∧ Nf.Low.alloc place (fun _ => 0) 1000 = some s0 ∧
    Steps 2 (Nf.Machine.handler macs 2 (Nf.Low.Firewall.handle place 1)) (start (some s0) 5 fun _ _ _ => 0) m3 ∧
    m3.now < timeMax ∧ ((m3.agents 0).sent 0).map Prod.snd = [60] ∧ ((m3.agents 1).sent 0).map Prod.snd = [60, 0] ∧
    (∀ i < 2, (m3.agents i).tdh 0 = (m3.agents i).tdt 0 ∧ Ixgbe.done ((m3.agents i).ring 0 (m3.agents i).pd) = false) :=
  ⟨rfl, rfl, by simp [Placed, place], by simp [s0], steps3, by decide +kernel, by decide +kernel, by decide +kernel,
    by decide +kernel⟩

/-- What C72_firewall_unsolicited says of the reply. -/
example : ∃ q ∈ (m3.agents 0).received, flow (packetOf q) = reverse (flow (samplePacket 2 1 4 3 1 9)) := by
  obtain ⟨w, hw, hw1, hw2⟩ : ∃ w ∈ (m3.agents 1).sent 0, w.2 ≠ 0 ∧ flow (packetOf w) = flow (samplePacket 2 1 4 3 1 9) := by
    decide +kernel
  obtain ⟨-, -, q, hq, -, h⟩ := (C72_firewall_unsolicited rfl rfl (by simp [Placed, place]) (by omega) (mem := fun _ => 0)
    (exp := 1000) (by simp [s0]) steps3 (by decide +kernel)).1 w hw hw1
  exact ⟨q, hq, by rw [h, hw2]⟩

/-- The hypothesis of C72_machine, C72_nothing_lost and C72_catches_up. -/
example : Machine.Bounded 2 fw := MachineNf.handler_bounded (MachineNf.firewall_lengths place 1)

/-- A NAT with WAN device 1. -/
def natConf : Nf.NatNf.Config := ⟨77, 1, 1000⟩
def natH : Handler (Option Nf.Low.State) Mem := Nf.Machine.handler macs 2 (Nf.Low.NatNf.handle place natConf)
def nat1 : St (Option Nf.Low.State) Mem := leave 0 0 (runs 2 natH 12 (complete 0 (fill 0 (samplePacket 1 2 3 4 0 0).data m0)))

/-- The hypotheses of C72_nat_partial, in a state where a packet has gone out from the external address and port. -/
example : natConf.externalAddr < 2 ^ 32 ∧ natConf.startPort < 65536 ∧ place.size ≤ 65536 ∧ Steps 2 natH (start (some s0) 5 fun _ _ _ => 0) nat1 ∧
    ((nat1.agents 0).sent 0).map (fun w => (w.2, PacketSpec.dword (packetOf w) 26, PacketSpec.word (packetOf w) 34, w.1 0, w.1 6)) =
      [(60, 77, 1000, 2, 4)] :=
  ⟨by decide, by decide, by decide,
    leave_steps 0 0 (by decide) (by decide) (by decide +kernel) (runs_steps 12 _ (arrive_steps 0 _ (by decide) (by decide) .refl)),
    by decide +kernel⟩

def place4 : Nf.Low.Layout := ⟨8192, 4, 4, 0, 4096⟩
def polConf : Nf.Policer.Config := { wanDevice := 1, rate := 1, burst := 100 }
theorem polAllocated : (Nf.Low.Policer.init place4 (fun _ => 0) polConf).isSome = true := by decide +kernel
def pol0 : Nf.Low.Policer.State := (Nf.Low.Policer.init place4 (fun _ => 0) polConf).get polAllocated
def polH : Handler (Option Nf.Low.Policer.State) Mem := Nf.Machine.handler macs 2 (Nf.Low.Policer.handle place4 polConf)
def pol1 : St (Option Nf.Low.Policer.State) Mem :=
  leave 1 0 (runs 2 polH 12 (complete 1 (fill 1 (samplePacket 1 2 3 4 0 0).data (start (some pol0) 5 fun _ _ _ => 0))))

/-- The hypotheses of C72_policer, in a state where a packet has gone in. -/
example : Placed place4 4 ∧ Nf.Low.Policer.init place4 (fun _ => 0) polConf = some pol0 ∧ polConf.rate ∣ polConf.burst ∧
    1000000000 * polConf.burst < 2 ^ 64 ∧ Steps 2 polH (start (some pol0) 5 fun _ _ _ => 0) pol1 ∧
    ((pol1.agents 1).sent 0).map Prod.snd = [60] :=
  ⟨by simp [Placed, place4], by simp [pol0], by decide, by decide,
    leave_steps 1 0 (by decide) (by decide) (by decide +kernel) (runs_steps 12 _ (arrive_steps 1 _ (by decide) (by decide) .refl)),
    by decide +kernel⟩

def macs3 : Macs := ⟨[[1, 1, 1, 1, 1, 1], [2, 2, 2, 2, 2, 2], []], [[3, 3, 3, 3, 3, 3], [4, 4, 4, 4, 4, 4], []]⟩
def place6 : Nf.Low.Layout := ⟨8192, 6, 4, 0, 4096⟩
def briConf : BridgeSpec.Config := ⟨3, 4, 1000, 1000⟩
theorem briAllocated : (Nf.Low.Bridge.init place6 (fun _ => 0) 3 7 1000 1000).isSome = true := by decide +kernel
def bri0 : Nf.Low.Bridge.State := (Nf.Low.Bridge.init place6 (fun _ => 0) 3 7 1000 1000).get briAllocated
def briH : Handler (Option Nf.Low.Bridge.State) Mem := Nf.Machine.handler macs3 3 (Nf.Low.Bridge.handle place6)
def bri1 : St (Option Nf.Low.Bridge.State) Mem :=
  leave 0 1 (leave 0 0 (runs 3 briH 12 (complete 0 (fill 0 (frame 4 2 0 1).data (start (some bri0) 5 fun _ _ _ => 0)))))
def bri2 : St (Option Nf.Low.Bridge.State) Mem :=
  leave 1 1 (leave 1 0 (runs 3 briH 16 (complete 1 (fill 1 (frame 2 4 1 2).data bri1))))

/-- The hypotheses of C72_bridge, in a state where a packet from device 0 was flooded and the answer from device 1 was sent to
device 0 only. -/
example : Placed place6 6 ∧ briConf.size = place6.size ∧ Nf.Low.Bridge.init place6 (fun _ => 0) briConf.devices 7 briConf.exp briConf.updateTime = some bri0 ∧
    Steps 3 briH (start (some bri0) 5 fun _ _ _ => 0) bri2 ∧
    (List.range 2).map (fun j => ((bri2.agents 0).sent j).map Prod.snd) = [[60], [60]] ∧
    (List.range 2).map (fun j => ((bri2.agents 1).sent j).map Prod.snd) = [[60], [0]] :=
  ⟨by simp [Placed, place6], rfl, by simp [bri0, briConf],
    leave_steps 1 1 (by decide) (by decide) (by decide +kernel) (leave_steps 1 0 (by decide) (by decide) (by decide +kernel)
      (runs_steps 16 _ (arrive_steps 1 _ (by decide) (by decide +kernel)
        (leave_steps 0 1 (by decide) (by decide) (by decide +kernel) (leave_steps 0 0 (by decide) (by decide) (by decide +kernel)
          (runs_steps 12 _ (arrive_steps 0 _ (by decide) (by decide) .refl))))))),
    by decide +kernel, by decide +kernel⟩

theorem balAllocated : (Nf.Low.Maglev.init place (fun _ => 0) 3 100 100 5).isSome = true := by decide +kernel
def bal0 : Nf.Low.Maglev.Balancer := (Nf.Low.Maglev.init place (fun _ => 0) 3 100 100 5).get balAllocated
def balH : Handler (Option Nf.Low.Maglev.Balancer) Mem := Nf.Machine.handler macs3 3 (Nf.Low.Maglev.handle place 3)
def bal1 : St (Option Nf.Low.Maglev.Balancer) Mem :=
  runs 3 balH 12 (complete 1 (fill 1 (samplePacket 9 9 9 9 0 0).data (start (some bal0) 5 fun _ _ _ => 0)))
def bal2 : St (Option Nf.Low.Maglev.Balancer) Mem :=
  leave 2 1 (leave 2 0 (runs 3 balH 16 (complete 2 (fill 2 (samplePacket 1 2 3 4 0 0).data bal1))))

/-- The hypotheses of C72_maglev_partial, in a state where backend 1 has sent a heartbeat and got a packet. -/
example : Placed place 16 ∧ Nf.Low.Maglev.init place (fun _ => 0) 3 100 100 5 = some bal0 ∧
    (2 ≤ 3 ∧ 3 - 1 < 5 ∧ 5 < 40000 ∧ ∀ s, 1 ≤ s → s ≤ 3 - 1 → Nat.Coprime 5 s) ∧
    Steps 3 balH (start (some bal0) 5 fun _ _ _ => 0) bal2 ∧
    (List.range 2).map (fun j => ((bal2.agents 2).sent j).map Prod.snd) = [[0], [60]] := by
  refine ⟨by simp [Placed, place], by simp [bal0], ⟨by omega, by omega, by omega, fun s h1 h2 => ?_⟩,
    leave_steps 2 1 (by decide) (by decide) (by decide +kernel) (leave_steps 2 0 (by decide) (by decide) (by decide +kernel)
      (runs_steps 16 _ (arrive_steps 2 _ (by decide) (by decide +kernel)
        (runs_steps 12 _ (arrive_steps 1 _ (by decide) (by decide) .refl))))),
    by decide +kernel⟩
  rcases (by omega : s = 1 ∨ s = 2) with rfl | rfl <;> decide

end MachineExample

end Verif.Props
