/- What one bridge does to a frame in a network, for property C73. -/
import Verif.Spec.BridgeNet
import Verif.Props.Bridge
import Verif.Props.Runtime

set_option autoImplicit false

namespace Verif.Props.Networked
open Verif.Nf (Packet Out)
open Verif.Nf.Runtime
open Verif.Nf.BridgeNet
open Verif.BridgeNetSpec (Wired Route LoopFree Linked)
open Verif.IndexPoolSpec (timeMax)

/-- The first twelve bytes are the addresses of a device. -/
def Stamped (n : Nat) (mac : Nat → List UInt8) (m : Mem) : Prop :=
  ∃ d < n, ∀ x < 6, m x = ((endpointMac d)[x]?).getD 0 ∧ m (6 + x) = ((mac d)[x]?).getD 0

theorem stamped_stMac {n : Nat} {mac : Nat → List UInt8} (m : Mem) {d : Nat} (hd : d < n) :
    Stamped n mac (stMac (stMac m 0 (endpointMac d)) 6 (mac d)) := by
  refine ⟨d, hd, fun x hx => ⟨?_, ?_⟩⟩
  · simp only [stMac]
    rw [if_neg (by omega), if_pos (by omega), Nat.sub_zero]
  · simp only [stMac]
    rw [if_pos (by omega), Nat.add_sub_cancel_left]

theorem floodLoop_stamped {n : Nat} {mac : Nat → List UInt8} (input length : Nat) (hi : input < n) (dis : Option (List Bool)) :
    ∀ (k i : Nat) (m : Mem) (ls : List Nat) (m' : Mem) (ls' : List Nat), i + k = n - 1 → (0 < k ∨ Stamped n mac m) →
      floodLoop { endpoint := (List.range n).map endpointMac, device := (List.range n).map mac } input length true dis k i m ls =
        some (m', ls') → Stamped n mac m' := by
  intro k
  induction k with
  | zero =>
    intro i m ls m' ls' _ h0 h
    simp only [floodLoop, Option.some.injEq, Prod.mk.injEq] at h
    rw [← h.1]
    exact h0.resolve_left (by omega)
  | succ k ih =>
    intro i m ls m' ls' hik _ h
    have hdev : deviceFromIndex input i < n := ((C49_indices_one_to_one n input hi).2 i (by omega)).1
    unfold floodLoop at h
    simp only [handleFlags, List.getElem?_map, List.getElem?_range hdev, Option.map_some,
      if_true, Option.bind_eq_bind, Option.bind_some, Option.bind_eq_some_iff] at h
    obtain ⟨_, _, ls1, _, h⟩ := h
    exact ih _ _ _ _ _ (by omega) (.inr (stamped_stMac m hdev)) h

/-- The ways in which a bridge handles a frame: data, time for a message, spanning tree
message received. `out` says on which device what length is sent. -/
inductive Effect (c : BridgeSpec.Config) (mac : Nat → List UInt8) (t : BridgeSpec.State) (p : Packet) :
    BridgeSpec.State → Mem → (Nat → Option Nat) → Prop
  | toOne (out : Nat → Option Nat) (e : Nat) : BridgeSpec.isData c t p → (BridgeSpec.learn c t p).port (BridgeSpec.dst p) = some e →
      e ≠ p.device → (∀ o, out o = if o = e then some p.length else none) →
      Effect c mac t p (BridgeSpec.learn c t p) p.data out
  | toNone (out : Nat → Option Nat) : BridgeSpec.isData c t p →
      (BridgeSpec.learn c t p).port (BridgeSpec.dst p) = some p.device → (∀ o, out o = none) →
      Effect c mac t p (BridgeSpec.learn c t p) p.data out
  | toAll (out : Nat → Option Nat) : BridgeSpec.isData c t p →
      (∀ o, out o = if o < c.devices ∧ o ≠ p.device ∧ t.blocked[o]? = some false then some p.length else none) →
      Effect c mac t p (BridgeSpec.learn c t p) p.data out
  | periodic (out : Nat → Option Nat) (m : Mem) : (t.lastUpdate + c.updateTime) % 2 ^ 64 < p.time → Stamped c.devices mac m →
      (∀ o, out o = if o < c.devices ∧ o ≠ p.device then some 34 else none) →
      Effect c mac t p { t with lastUpdate := p.time } m out
  | received (out : Nat → Option Nat) (m : Mem) (blocked : List Bool) :
      p.time ≤ (t.lastUpdate + c.updateTime) % 2 ^ 64 → BridgeSpec.dst p = BridgeSpec.stpAddr →
      ((∀ o, out o = none) ∨
        (Stamped c.devices mac m ∧ ∀ o, out o = if o < c.devices ∧ o ≠ p.device then some p.length else none)) →
      Effect c mac t p { t with blocked := blocked } m out

theorem learn_blocked (c : BridgeSpec.Config) (t : BridgeSpec.State) (p : Packet) : (BridgeSpec.learn c t p).blocked = t.blocked := by
  unfold BridgeSpec.learn; split <;> rfl

theorem sent_none (n input : Nat) (d : Nat) : sent input (List.replicate (n - 1) 0) d = none := by
  unfold sent
  split
  · rfl
  · split
    · rfl
    · rename_i l hl
      rw [List.getElem?_replicate] at hl
      split at hl
      · cases hl; rfl
      · cases hl

theorem emitAll_one (macs : Macs) (n : Nat) (m : Mem) (ls : List Nat) (o : Out) :
    Nf.Machine.emitAll macs n m ls [o] = emit macs n ls o := by
  simp only [Nf.Machine.emitAll, Option.bind_eq_bind]
  cases emit macs n ls o with
  | none => rfl
  | some r => rfl

theorem process_effect {c : BridgeSpec.Config} {mac : Nat → List UInt8} {now : Nat} {s : Nf.Bridge.State} {t : BridgeSpec.State}
    (r : BridgeRel c now s t) (h2 : 2 ≤ c.devices) (hports : ∀ a d, t.port a = some d → d < c.devices) {p : Packet}
    (hm : now ≤ p.time) (ht : p.time < timeMax) (hd : p.device < c.devices) (hl : p.length ≠ 0) :
    ∃ s' m ls t', process { endpoint := (List.range c.devices).map endpointMac, device := (List.range c.devices).map mac }
        c.devices s p = some (s', m, ls) ∧ BridgeRel c p.time s' t' ∧
      Effect c mac t p t' m (fun o => sent p.device ls o) := by
  obtain ⟨s', outs, t', h3, h4, h5⟩ := bridge_step r hm ht hd
  let macs : Macs := { endpoint := (List.range c.devices).map endpointMac, device := (List.range c.devices).map mac }
  have e1 : macs.endpoint.length = c.devices := by simp [macs]
  have e2 : macs.device.length = c.devices := by simp [macs]
  have hproc : ∀ o m ls, outs = [o] →
      emit { endpoint := (List.range c.devices).map endpointMac, device := (List.range c.devices).map mac } c.devices
        (List.replicate (c.devices - 1) 0) o = some (m, ls) →
      process { endpoint := (List.range c.devices).map endpointMac, device := (List.range c.devices).map mac }
        c.devices s p = some (s', m, ls) := by
    intro o m ls ho he
    subst ho
    simp only [process, h3, Option.bind_eq_bind, Option.bind_some, emitAll_one, he]
  have hmsg : ∀ q : Packet, BridgeSpec.Message p q → q.length ≠ 0 → outs = [.flood q true] → ∃ m ls,
      process { endpoint := (List.range c.devices).map endpointMac, device := (List.range c.devices).map mac }
        c.devices s p = some (s', m, ls) ∧ Stamped c.devices mac m ∧
        ∀ o, sent p.device ls o = if o < c.devices ∧ o ≠ p.device then some q.length else none := by
    intro q hq hql ho
    obtain ⟨m, ls, h6, h7, _, _⟩ := C49_flood macs c.devices e1 e2 q (by rw [hq.1]; exact hd) hql true
    refine ⟨m, ls, hproc _ m ls ho h6, ?_, ?_⟩
    · exact floodLoop_stamped _ _ (by rw [hq.1]; exact hd) _ _ _ _ _ _ _ (by omega) (.inl (by omega)) h6
    · rw [← hq.1]; exact h7
  -- the length of a message
  have hlen : ∀ q, outs = [.flood q true] → q.length = if (t.lastUpdate + c.updateTime) % 2 ^ 64 < p.time then 34 else p.length := by
    intro q ho
    subst ho
    simp only [Nf.Bridge.handle, Nf.Bridge.stpHandle, r.last, r.upd] at h3
    split at h3
    · rename_i hper
      rw [if_pos hper]
      simp only [Option.bind_eq_bind, Option.bind_some, Option.some.injEq, Prod.mk.injEq, List.cons.injEq, and_true,
        Out.flood.injEq] at h3
      rw [← h3.2]
    · rename_i hper
      rw [if_neg hper]
      cases hb : Nf.Bridge.isStpDst p.data with
      | false =>
        rw [hb] at h3
        simp only [Bool.not_false, ↓reduceIte, Option.bind_eq_bind, Option.bind_some, Nf.Bridge.handleData,
          Option.bind_eq_some_iff, Prod.exists, Option.some.injEq, Prod.mk.injEq] at h3
        obtain ⟨_, _, _, os, hf, _, rfl⟩ := h3
        unfold Nf.Bridge.forward at hf
        split at hf
        · simp only [Option.bind_eq_bind, Option.bind_eq_some_iff] at hf
          obtain ⟨_, _, hf⟩ := hf
          split at hf <;> cases hf
        · cases hf
      | true =>
        rw [hb] at h3
        simp only [Bool.not_true, Bool.false_eq_true, ↓reduceIte, Option.bind_eq_bind, Option.bind_eq_some_iff,
          Option.map_eq_some_iff, Prod.exists, Prod.mk.injEq] at h3
        obtain ⟨st, oo, ⟨st', outs', h6, rfl, rfl⟩, h7⟩ := h3
        simp only [Option.some.injEq, Prod.mk.injEq] at h7
        obtain ⟨_, rfl⟩ := h7
        have hu : ∀ (st : Nf.Bridge.Stp), Nf.Bridge.stpUpdated st p = some (st', [.flood q true]) → q.length = p.length := by
          intro st h
          simp only [Nf.Bridge.stpUpdated] at h
          split at h
          · simp only [Option.some.injEq, Prod.mk.injEq, List.cons.injEq, and_true, Out.flood.injEq] at h
            rw [← h.2]
          · cases h
        simp only [Nf.Bridge.stpBpdu] at h6
        split at h6
        · split at h6 <;> simp at h6
        split at h6
        · exact hu _ h6
        split at h6
        · exact hu _ h6
        split at h6
        · exact hu _ h6
        · simp at h6
  cases h4 with
  | data _ hdata hf =>
    cases hf with
    | known e h6 h7 =>
      have hports' : ∀ a d, (BridgeSpec.learn c t p).port a = some d → d < c.devices := by
        intro a d h
        unfold BridgeSpec.learn at h
        split at h
        · exact hports a d h
        · simp only at h
          split at h
          · cases h; exact hd
          · exact hports a d h
      obtain ⟨m, ls, h8, h9, h10, _⟩ := C49_transmit macs c.devices e1 e2 p hd hl e (hports' _ _ h6) h7 false
      rw [h10 rfl] at h8
      exact ⟨s', p.data, ls, _, hproc _ _ ls rfl h8, h5, .toOne _ e hdata h6 h7 h9⟩
    | here h6 =>
      refine ⟨s', p.data, List.replicate (c.devices - 1) 0, _, ?_, h5, .toNone _ hdata h6 (sent_none c.devices p.device)⟩
      simp only [process, h3, Option.bind_eq_bind, Option.bind_some, Nf.Machine.emitAll]
    | unknown h6 =>
      rw [learn_blocked] at hproc
      obtain ⟨m, ls, h8, h9, h10, _⟩ := C49_flood_except macs c.devices e1 e2 p hd hl false t.blocked r.blen
      rw [h10 rfl] at h8
      exact ⟨s', p.data, ls, _, hproc _ _ ls rfl h8, h5, .toAll _ hdata h9⟩
  | periodic q hper hq =>
    have hql := hlen q rfl
    rw [if_pos hper] at hql
    obtain ⟨m, ls, h6, h7, h8⟩ := hmsg q hq (by rw [hql]; decide) rfl
    rw [hql] at h8
    exact ⟨s', m, ls, _, h6, h5, .periodic _ m hper h7 h8⟩
  | worse hnd =>
    by_cases hper : (t.lastUpdate + c.updateTime) % 2 ^ 64 < p.time
    · exfalso
      simp only [Nf.Bridge.handle, Nf.Bridge.stpHandle, r.last, r.upd] at h3
      rw [if_pos hper] at h3
      simp at h3
    · have hdst : BridgeSpec.dst p = BridgeSpec.stpAddr := by
        by_contra h; exact h hnd.2
      refine ⟨s', p.data, List.replicate (c.devices - 1) 0, _, ?_, h5, .received _ _ _ (by omega) hdst (.inl (sent_none c.devices p.device))⟩
      simp only [process, h3, Option.bind_eq_bind, Option.bind_some, Nf.Machine.emitAll]
  | better q hnd hq =>
    have hql := hlen q rfl
    by_cases hper : (t.lastUpdate + c.updateTime) % 2 ^ 64 < p.time
    · have h6 := h5.last
      have h7 := h5.blocked
      simp only [Nf.Bridge.handle, Nf.Bridge.stpHandle, r.last, r.upd] at h3
      rw [if_pos hper] at h3
      simp only [Option.bind_eq_bind, Option.bind_some, Option.some.injEq, Prod.mk.injEq] at h3
      rw [← h3.1] at h6 h7
      have h6 : p.time = t.lastUpdate := h6
      have h7 : s.stp.disabled = t.blocked.set p.device false := h7
      rw [if_pos hper] at hql
      obtain ⟨m, ls, h8, h9, h10⟩ := hmsg q hq (by rw [hql]; decide) rfl
      rw [hql] at h10
      rw [← h7, r.blocked] at h5
      have e : ({ t with blocked := t.blocked } : BridgeSpec.State) = { t with lastUpdate := p.time } := by rw [h6]
      rw [e] at h5
      exact ⟨s', m, ls, _, h8, h5, .periodic _ m hper h9 h10⟩
    · rw [if_neg hper] at hql
      have hdst : BridgeSpec.dst p = BridgeSpec.stpAddr := by
        by_contra h; exact h hnd.2
      obtain ⟨m, ls, h6, h7, h8⟩ := hmsg q hq (by rw [hql]; exact hl) rfl
      rw [hql] at h8
      exact ⟨s', m, ls, _, h6, h5, .received _ m _ (by omega) hdst (.inr ⟨h7, h8⟩)⟩
  | ignored hnd =>
    by_cases hper : (t.lastUpdate + c.updateTime) % 2 ^ 64 < p.time
    · exfalso
      simp only [Nf.Bridge.handle, Nf.Bridge.stpHandle, r.last, r.upd] at h3
      rw [if_pos hper] at h3
      simp at h3
    · have hdst : BridgeSpec.dst p = BridgeSpec.stpAddr := by
        by_contra h; exact h hnd.2
      refine ⟨s', p.data, List.replicate (c.devices - 1) 0, _, ?_, h5,
        .received _ _ t.blocked (by omega) hdst (.inl (sent_none c.devices p.device))⟩
      simp only [process, h3, Option.bind_eq_bind, Option.bind_some, Nf.Machine.emitAll]

/-! ### The whole network -/

def cfg (net : Net) (b : Nat) : BridgeSpec.Config :=
  { devices := net.devices b, size := (net.config b).capacity, exp := (net.config b).expiration,
    updateTime := (net.config b).updateTime }

/-- The packet that a bridge receives. -/
def received (f : Flying) (data : Mem) (time d : Nat) : Packet :=
  { data := data, length := max f.frame.length 60, time := time, device := d }

/-- Executions, together with the states of the specification of the bridges. -/
inductive Exec (net : Net) : St → (Nat → BridgeSpec.State) → Prop
  | start (s : St) : Start net s → Exec net s (fun b => bridgeStart (cfg net b))
  | inject {s : St} {t : Nat → BridgeSpec.State} (b d : Nat) (f : Frame) : Exec net s t → b < net.bridges →
      d < net.devices b → net.link (b, d) = none → 60 ≤ f.length →
      Exec net { s with
        wire := s.wire ++ [{ id := s.injected.length, route := [(b, d)], frame := f }]
        injected := s.injected ++ [((b, d), f)] } t
  | handle {s : St} {t : Nat → BridgeSpec.State} (pre post : List Flying) (f : Flying) (b d : Nat) (rest : List Port)
      (time : Nat) (data : Mem) (r : Nf.Bridge.State × Mem × List Nat) (t' : BridgeSpec.State) : Exec net s t →
      s.wire = pre ++ f :: post → f.route = (b, d) :: rest → b < net.bridges → d < net.devices b →
      34 ≤ f.frame.length → (∀ x < f.frame.length, data x = f.frame.data x) → s.clock b ≤ time →
      process (net.macs b) (net.devices b) (s.bridge b) (received f data time d) = some r →
      Effect (cfg net b) (net.mac b) (t b) (received f data time d) t' r.2.1 (fun o => sent d r.2.2 o) →
      due (s.bridge b) time = decide (((t b).lastUpdate + (net.config b).updateTime) % 2 ^ 64 < time) →
      Exec net (s.after net b d f (pre ++ post) time r) (fun x => if x = b then t' else t x)

structure Basic (net : Net) (s : St) (t : Nat → BridgeSpec.State) : Prop where
  rel : ∀ b < net.bridges, BridgeRel (cfg net b) (s.clock b) (s.bridge b) (t b)
  ports : ∀ b < net.bridges, ∀ a d, (t b).port a = some d → d < net.devices b
  wire : ∀ f ∈ s.wire, ∃ b d rest, f.route = (b, d) :: rest ∧ b < net.bridges ∧ d < net.devices b ∧ 34 ≤ f.frame.length

theorem mem_copies {n d : Nat} {ls : List Nat} {c : Nat × Nat} :
    c ∈ copies n d ls ↔ c.1 < n ∧ sent d ls c.1 = some c.2 := by
  obtain ⟨o, l⟩ := c
  simp only [copies, List.mem_filterMap, List.mem_range, Option.map_eq_some_iff, Prod.mk.injEq]
  constructor
  · rintro ⟨o', h1, l', h2, rfl, rfl⟩; exact ⟨h1, h2⟩
  · rintro ⟨h1, h2⟩; exact ⟨o, h1, l, h2, rfl, rfl⟩

theorem mem_onward {net : Net} {b : Nat} {f g : Flying} {m : Mem} {cs : List (Nat × Nat)} :
    g ∈ onward net b f m cs ↔ ∃ o l e, (o, l) ∈ cs ∧ net.link (b, o) = some e ∧
      g = { id := f.id, route := e :: f.route, frame := ⟨m, l⟩ } := by
  simp only [onward, List.mem_filterMap, Option.map_eq_some_iff]
  constructor
  · rintro ⟨⟨o, l⟩, h, e, h2, h3⟩; exact ⟨o, l, e, h, h2, h3.symm⟩
  · rintro ⟨o, l, e, h, h2, h3⟩; exact ⟨(o, l), h, e, h2, h3.symm⟩

theorem mem_leaving {net : Net} {b : Nat} {f g : Flying} {m : Mem} {cs : List (Nat × Nat)} :
    g ∈ leaving net b f m cs ↔ ∃ o l, (o, l) ∈ cs ∧ net.link (b, o) = none ∧
      g = { id := f.id, route := (b, o) :: f.route, frame := ⟨m, l⟩ } := by
  simp only [leaving, List.mem_filterMap, Prod.exists]
  constructor
  · rintro ⟨o, l, h, h2⟩
    split at h2
    · rename_i h3
      cases h2
      exact ⟨o, l, h, h3, rfl⟩
    · cases h2
  · rintro ⟨o, l, h, h2, rfl⟩
    exact ⟨o, l, h, by rw [if_pos h2]⟩

theorem sent_self (d : Nat) (ls : List Nat) : sent d ls d = none := by simp [sent, outputOf]

theorem effect_length {c : BridgeSpec.Config} {mac : Nat → List UInt8} {t t' : BridgeSpec.State} {p : Packet} {m : Mem}
    {out : Nat → Option Nat} (h : Effect c mac t p t' m out) {o l : Nat} (ho : out o = some l) :
    l = p.length ∨ l = 34 := by
  cases h with
  | toOne _ e _ _ _ h1 => rw [h1] at ho; split at ho <;> cases ho; exact .inl rfl
  | toNone _ _ _ h1 => rw [h1] at ho; cases ho
  | toAll _ _ h1 => rw [h1] at ho; split at ho <;> cases ho; exact .inl rfl
  | periodic _ _ _ _ h1 => rw [h1] at ho; split at ho <;> cases ho; exact .inr rfl
  | received _ _ _ _ _ h1 =>
    rcases h1 with h1 | ⟨_, h1⟩
    · rw [h1] at ho; cases ho
    · rw [h1] at ho; split at ho <;> cases ho; exact .inl rfl

theorem effect_port {c : BridgeSpec.Config} {mac : Nat → List UInt8} {t t' : BridgeSpec.State} {p : Packet} {m : Mem}
    {out : Nat → Option Nat} (h : Effect c mac t p t' m out) {a d : Nat} (ha : t'.port a = some d) :
    t.port a = some d ∨ (d = p.device ∧ BridgeSpec.src p = a ∧ ¬ BridgeSpec.group a) := by
  have hlearn : (BridgeSpec.learn c t p).port a = some d →
      t.port a = some d ∨ (d = p.device ∧ BridgeSpec.src p = a ∧ ¬ BridgeSpec.group a) := by
    intro h
    unfold BridgeSpec.learn at h
    split at h
    · exact .inl h
    · rename_i hg
      simp only at h
      split at h
      · rename_i he
        cases h
        exact .inr ⟨rfl, he.symm, by rw [he]; exact hg⟩
      · exact .inl h
  cases h with
  | toOne => exact hlearn ha
  | toNone => exact hlearn ha
  | toAll => exact hlearn ha
  | periodic => exact .inl ha
  | received => exact .inl ha

theorem exec_of_reachable {net : Net} (w : Wired net) {s : St} (h : Reachable net s) : ∃ t, Exec net s t ∧ Basic net s t := by
  induction h with
  | start s h =>
    refine ⟨_, .start s h, ?_, ?_, ?_⟩
    · intro b hb
      obtain ⟨tb, h3, _, hlook⟩ := Nf.inv_alloc 0 (net.config b).capacity (net.config b).expiration
      obtain ⟨tb0, h3', hrel⟩ := Nf.rel_alloc (net.config b).capacity (net.config b).expiration 0
      rw [h3] at h3'; cases h3'
      have hi := h.bridge b hb
      have h2 := w.two b hb
      simp only [Nf.Bridge.init, h3, if_neg (show ¬ net.devices b < 2 by omega), Option.bind_eq_bind, Option.bind_some,
        Option.some.injEq] at hi
      rw [h.clock, ← hi]
      exact ⟨hrel, by simp [cfg], (fun a i v h => by rw [hlook] at h; cases h), rfl, rfl, rfl, by simp [bridgeStart, cfg]⟩
    · intro b _ a d h; cases h
    · rw [h.wire]; simp
  | @step s _ _ hs ih =>
    obtain ⟨t, he, hb⟩ := ih
    cases hs with
    | inject b d f h1 h2 h3 h4 =>
      refine ⟨t, .inject b d f he h1 h2 h3 h4, hb.rel, hb.ports, ?_⟩
      intro g hg
      rcases List.mem_append.1 hg with hg | hg
      · exact hb.wire g hg
      · rw [List.mem_singleton.1 hg]
        exact ⟨b, d, [], rfl, h1, h2, by show 34 ≤ f.length; omega⟩
    | handle pre post f b d rest time data r h1 h2 h3 h4 h5 h6 =>
      obtain ⟨b', d', rest', h7, h8, h9, h10⟩ := hb.wire f (by rw [h1]; simp)
      rw [h2] at h7; cases h7
      obtain ⟨s', m, ls, t', h11, h12, h13⟩ := process_effect (mac := net.mac b) (hb.rel b h8) (w.two b h8)
        (hb.ports b h8) (p := received f data time d) h3 (by show time < timeMax; unfold timeMax; omega) h9
        (by show max _ _ ≠ 0; omega)
      have h6 : process (net.macs b) (net.devices b) (s.bridge b) (received f data time d) = some r := h6
      obtain rfl : (s', m, ls) = r := Option.some.inj (h11.symm.trans h6)
      refine ⟨_, .handle pre post f b d rest time data (s', m, ls) t' he h1 h2 h8 h9 h10 h5 h3 h6 h13 ?_, ?_, ?_, ?_⟩
      · simp only [due, (hb.rel b h8).last, (hb.rel b h8).upd]
        rfl
      · intro x hx
        simp only [St.after]
        by_cases hxb : x = b
        · subst hxb
          simp only [if_true]
          exact h12
        · simp only [if_neg hxb]
          exact hb.rel x hx
      · intro x hx a e hp
        by_cases hxb : x = b
        · subst hxb
          simp only [if_true] at hp
          rcases effect_port h13 hp with h | ⟨h, _⟩
          · exact hb.ports x hx a e h
          · rw [h]; exact h9
        · simp only [if_neg hxb] at hp
          exact hb.ports x hx a e hp
      · intro g hg
        simp only [St.after, List.mem_append, mem_onward, mem_copies] at hg
        rcases hg with (hg | hg) | ⟨o, l, e, ⟨_, hl⟩, h14, rfl⟩
        · exact hb.wire g (by rw [h1]; simp [hg])
        · exact hb.wire g (by rw [h1]; simp [hg])
        · obtain ⟨eb, ed⟩ := e
          have h15 := w.exist _ _ _ (w.sym _ _ h14)
          refine ⟨eb, ed, _, rfl, h15.1, h15.2, ?_⟩
          show 34 ≤ l
          rcases effect_length h13 hl with h | h
          · rw [h]; show 34 ≤ max _ _; omega
          · omega

end Verif.Props.Networked
