/- Property C42: the firewall. -/
import Verif.Nf.Firewall
import Verif.Nf.PacketProofs
import Verif.Nf.ExpiringProofs

set_option autoImplicit false

namespace Verif.Props
open Verif.Nf (Packet Flow Table Out)
open Verif.PacketSpec (isTcpUdp flow reverse)
open Verif.IndexPoolSpec (timeMax)

namespace FirewallSpec

/-- Should the packet be let through, given the flows tracked so far? -/
def admits (ext exp : Nat) (s : GMap Flow Nat) (p : Packet) : Bool :=
  decide (isTcpUdp p) && (decide (p.device ≠ ext) || Expiring.mem exp p.time s (reverse (flow p)))

/-- The flows tracked after the packet. -/
def next (size ext exp : Nat) (s : GMap Flow Nat) (p : Packet) : GMap Flow Nat :=
  if ¬ isTcpUdp p then s
  else if p.device ≠ ext then Expiring.learn size exp p.time s (flow p)
  else if Expiring.mem exp p.time s (reverse (flow p)) then Expiring.touch exp p.time s (reverse (flow p))
  else s

/-- The required outputs: admitted packets go unmodified to the other device. -/
def outputs (size ext exp : Nat) : GMap Flow Nat → List Packet → List (List Out)
  | _, [] => []
  | s, p :: ps =>
    (if admits ext exp s p then [Out.transmit p (1 - p.device) false] else []) ::
      outputs size ext exp (next size ext exp s p) ps

end FirewallSpec
open FirewallSpec

/-- Times do not decrease, starting from `now`. -/
def MonoFrom : Nat → List Packet → Prop
  | _, [] => True
  | now, p :: ps => now ≤ p.time ∧ MonoFrom p.time ps

theorem other_device {p : Packet} (h : p.device < 2) : Nf.otherDevice p = 1 - p.device := by
  unfold Nf.otherDevice; omega

theorem firewall_step {size ext exp now : Nat} {tb : Table Flow} {s : GMap Flow Nat}
    (r : Nf.Rel size exp now tb s) {p : Packet} (hm : now ≤ p.time) (ht : p.time < timeMax) (hd : p.device < 2) :
    ∃ tb', Nf.Firewall.handle ext tb p =
        some (tb', if admits ext exp s p then [Out.transmit p (1 - p.device) false] else []) ∧
      Nf.Rel size exp p.time tb' (next size ext exp s p) := by
  have r := r.later hm
  by_cases hip : PacketSpec.isIpv4 p
  swap
  · have hn : ¬ isTcpUdp p := fun h => hip h.1
    refine ⟨tb, ?_, ?_⟩
    · simp [Nf.Firewall.handle, Nf.getIpv4Header_eq, hip, admits, hn]
    · simpa [next, hn] using r
  by_cases hl4 : isTcpUdp p
  swap
  · refine ⟨tb, ?_, ?_⟩
    · simp [Nf.Firewall.handle, Nf.getIpv4Header_eq, hip, Nf.getTcpudpHeader_eq p hip, admits, hl4]
    · simpa [next, hl4] using r
  by_cases hext : p.device = ext
  · have hflow : (⟨Nf.ld32 p.data (14 + 16), Nf.ld32 p.data (14 + 12), Nf.ld16 p.data (34 + 2), Nf.ld16 p.data 34,
        (p.data (14 + 9)).toNat⟩ : Flow) = reverse (flow p) := by
      simp only [Nf.ld32_dword, Nf.ld16_word, reverse, flow, PacketSpec.byte]
    simp only [Nf.Firewall.handle, Nf.getIpv4Header_eq, hip, Nf.getTcpudpHeader_eq p hip, hl4, hext, if_true,
      hflow, admits, next]
    simp only [decide_true, Bool.true_and, not_true_eq_false, decide_false, Bool.false_or,
      ne_eq, ↓reduceIte]
    have hmem := Nf.mem_eq r (reverse (flow p))
    cases hg : tb.map.get (reverse (flow p)) with
    | none =>
      have hl := Nf.look_none_of_get hg
      have hmf : Expiring.mem exp p.time s (reverse (flow p)) = false := by rw [hmem]; simp [Nf.liveLook, hl]
      refine ⟨tb, ?_, ?_⟩
      · simp [Nf.Firewall.hasExternal, hg, hmf]
      · simpa [hmf] using r
    | some i =>
      obtain ⟨t0, hst, hl⟩ := Nf.look_of_get r.inv hg
      have hu := Nf.used_eq r.inv p.time i
      rw [hst] at hu
      simp only at hu
      rw [← Nf.fresh_eq_young] at hu
      have hmt : Expiring.mem exp p.time s (reverse (flow p)) = Expiring.fresh exp p.time t0 := by
        rw [hmem]
        cases hf : Expiring.fresh exp p.time t0 <;> simp [Nf.liveLook, hl, Option.filter, hf]
      cases hf : Expiring.fresh exp p.time t0 with
      | false =>
        rw [hf] at hu hmt
        refine ⟨tb, ?_, ?_⟩
        · simp [Nf.Firewall.hasExternal, hg, hu, hmt]
        · simpa [hmt] using r
      | true =>
        rw [hf] at hu hmt
        obtain ⟨tb', h1, h2, _⟩ := Nf.refresh_learn r ht hg
        refine ⟨tb', ?_, ?_⟩
        · simp [Nf.Firewall.hasExternal, hg, hu, hmt, h1, other_device hd, hext]
        · simpa [hmt, Expiring.learn] using h2
  · have hflow : (⟨Nf.ld32 p.data (14 + 12), Nf.ld32 p.data (14 + 16), Nf.ld16 p.data 34, Nf.ld16 p.data (34 + 2),
        (p.data (14 + 9)).toNat⟩ : Flow) = flow p := by
      simp only [Nf.ld32_dword, Nf.ld16_word, flow, PacketSpec.byte]
    simp only [Nf.Firewall.handle, Nf.getIpv4Header_eq, hip, Nf.getTcpudpHeader_eq p hip, hl4, hext, if_true, if_false,
      hflow, admits, next]
    simp only [decide_true, Bool.true_and, not_true_eq_false, Bool.true_or, not_false_eq_true,
      ne_eq, ↓reduceIte, hext]
    cases hg : tb.map.get (flow p) with
    | none =>
      obtain ⟨tb', o, h1, h2, _⟩ := Nf.insert_learn r ht hg
      refine ⟨tb', ?_, h2⟩
      simp [Nf.Firewall.learnInternal, hg, h1, other_device hd]
    | some i =>
      obtain ⟨tb', h1, h2, _⟩ := Nf.refresh_learn r ht hg
      refine ⟨tb', ?_, h2⟩
      simp [Nf.Firewall.learnInternal, hg, h1, other_device hd]

theorem firewall_run {size ext exp : Nat} : ∀ (ps : List Packet) {now : Nat} {tb : Table Flow} {s : GMap Flow Nat},
    Nf.Rel size exp now tb s → MonoFrom now ps → (∀ p ∈ ps, p.time < timeMax ∧ p.device < 2) →
    ∃ tb', Nf.Firewall.run ext tb ps = some (tb', outputs size ext exp s ps) := by
  intro ps
  induction ps with
  | nil => intro now tb s _ _ _; exact ⟨tb, rfl⟩
  | cons p ps ih =>
    intro now tb s r hm hp
    obtain ⟨tb1, h1, h2⟩ := firewall_step (ext := ext) r hm.1 (hp p (by simp)).1 (hp p (by simp)).2
    obtain ⟨tb2, h3⟩ := ih h2 hm.2 (fun q hq => hp q (by simp [hq]))
    exact ⟨tb2, by simp [Nf.Firewall.run, h1, h3, outputs]⟩

/-- C42: for every table size, expiration time, external device and packet sequence
with non-decreasing times on the two devices, the firewall violates no precondition
of the data structures and outputs exactly what a capacity-limited expiring set of
flows prescribes: internal TCP/UDP packets always pass; an external one passes iff
its reversed flow is tracked and was last used within the expiration time; packets
go unmodified to the other device. -/
theorem C42_firewall_refines_expiring_set (size exp ext : Nat) (ps : List Packet)
    (hm : MonoFrom 0 ps) (hp : ∀ p ∈ ps, p.time < timeMax ∧ p.device < 2) :
    ∃ tb tb', Nf.Firewall.init exp size = some tb ∧
      Nf.Firewall.run ext tb ps = some (tb', outputs size ext exp [] ps) := by
  obtain ⟨tb, h1, h2⟩ := Nf.rel_alloc size exp Flow.zero
  obtain ⟨tb', h3⟩ := firewall_run (ext := ext) ps h2 hm hp
  exact ⟨tb, tb', h1, h3⟩

/-! A history-only reading of the specification, valid for any times. -/

/-- The time of the last packet that used flow `f`: sent from inside, or admitted
from outside. The trace lists packets with their outputs, oldest first. -/
def lastUse (ext : Nat) (f : Flow) : List (Packet × List Out) → Option Nat
  | [] => none
  | (p, o) :: rest =>
    match lastUse ext f rest with
    | some t => some t
    | none =>
      if isTcpUdp p ∧ ((p.device ≠ ext ∧ flow p = f) ∨ (p.device = ext ∧ o ≠ [] ∧ reverse (flow p) = f))
      then some p.time else none

theorem lastUse_append (ext : Nat) (f : Flow) (tr : List (Packet × List Out)) (p : Packet) (o : List Out) :
    lastUse ext f (tr ++ [(p, o)]) =
      if isTcpUdp p ∧ ((p.device ≠ ext ∧ flow p = f) ∨ (p.device = ext ∧ o ≠ [] ∧ reverse (flow p) = f))
      then some p.time else lastUse ext f tr := by
  induction tr with
  | nil => simp [lastUse]
  | cons x tr ih =>
    obtain ⟨q, oq⟩ := x
    simp only [List.cons_append, lastUse, ih]
    by_cases hc : isTcpUdp p ∧ ((p.device ≠ ext ∧ flow p = f) ∨ (p.device = ext ∧ o ≠ [] ∧ reverse (flow p) = f))
    · simp only [if_pos hc]
    · simp only [if_neg hc]

/-- What the table knows is what the history says. -/
def Known (ext : Nat) (tb : Table Flow) (tr : List (Packet × List Out)) : Prop :=
  ∀ f i t, Nf.look tb f = some (i, t) → lastUse ext f tr = some t

theorem firewall_known_step {size ext exp : Nat} {tb : Table Flow} {tr : List (Packet × List Out)}
    (inv : Nf.Inv size exp tb) (hk : Known ext tb tr) {p : Packet} (ht : p.time < timeMax) :
    ∃ tb' o, Nf.Firewall.handle ext tb p = some (tb', o) ∧ Nf.Inv size exp tb' ∧ Known ext tb' (tr ++ [(p, o)]) ∧
      (o = [] ∨ o = [Out.transmit p (Nf.otherDevice p) false]) ∧
      (¬ isTcpUdp p → o = []) ∧ (isTcpUdp p → p.device ≠ ext → o ≠ []) ∧
      (isTcpUdp p → p.device = ext → o ≠ [] →
        ∃ t, lastUse ext (reverse (flow p)) tr = some t ∧ p.time ≤ t + exp) := by
  by_cases hip : PacketSpec.isIpv4 p
  swap
  · have hn : ¬ isTcpUdp p := fun h => hip h.1
    refine ⟨tb, [], by simp [Nf.Firewall.handle, Nf.getIpv4Header_eq, hip], inv, ?_, .inl rfl, by simp,
      fun h => absurd h hn, fun h => absurd h hn⟩
    intro f i t h; rw [lastUse_append, if_neg (fun h => hn h.1)]; exact hk f i t h
  by_cases hl4 : isTcpUdp p
  swap
  · refine ⟨tb, [], by simp [Nf.Firewall.handle, Nf.getIpv4Header_eq, hip, Nf.getTcpudpHeader_eq p hip, hl4], inv, ?_,
      .inl rfl, by simp, fun h => absurd h hl4, fun h => absurd h hl4⟩
    intro f i t h; rw [lastUse_append, if_neg (fun h => hl4 h.1)]; exact hk f i t h
  by_cases hext : p.device = ext
  · have hflow : (⟨Nf.ld32 p.data (14 + 16), Nf.ld32 p.data (14 + 12), Nf.ld16 p.data (34 + 2), Nf.ld16 p.data 34,
        (p.data (14 + 9)).toNat⟩ : Flow) = reverse (flow p) := by
      simp only [Nf.ld32_dword, Nf.ld16_word, reverse, flow, PacketSpec.byte]
    simp only [Nf.Firewall.handle, Nf.getIpv4Header_eq, hip, Nf.getTcpudpHeader_eq p hip, hl4, hext, if_true, hflow]
    have hno : ∀ tb', Nf.Firewall.hasExternal tb p.time (reverse (flow p)) = some (tb', false) → tb' = tb →
      ∃ tb' o, (do
          let (tb, ok) ← Nf.Firewall.hasExternal tb p.time (reverse (flow p))
          if !ok then some (tb, []) else some (tb, [Out.transmit p (Nf.otherDevice p) false])) = some (tb', o) ∧
        Nf.Inv size exp tb' ∧ Known ext tb' (tr ++ [(p, o)]) ∧
        (o = [] ∨ o = [Out.transmit p (Nf.otherDevice p) false]) ∧
        (¬ True → o = []) ∧ (True → ext ≠ ext → o ≠ []) ∧
        (True → True → o ≠ [] → ∃ t, lastUse ext (reverse (flow p)) tr = some t ∧ p.time ≤ t + exp) := by
      rintro tb' he rfl
      refine ⟨tb', [], by simp [he], inv, ?_, .inl rfl, by simp, by simp, by simp⟩
      intro f i t h; rw [lastUse_append, if_neg (by simp [hext])]; exact hk f i t h
    cases hg : tb.map.get (reverse (flow p)) with
    | none => exact hno tb (by simp [Nf.Firewall.hasExternal, hg]) rfl
    | some i =>
      obtain ⟨t0, hst, hl⟩ := Nf.look_of_get inv hg
      have hu := Nf.used_eq inv p.time i
      rw [hst] at hu
      simp only at hu
      rw [← Nf.fresh_eq_young] at hu
      cases hf : Expiring.fresh exp p.time t0 with
      | false => exact hno tb (by simp [Nf.Firewall.hasExternal, hg, hu, hf]) rfl
      | true =>
        obtain ⟨tb', h1, h2, _, _, h3⟩ := Nf.refresh_spec inv hl ht
        refine ⟨tb', [Out.transmit p (Nf.otherDevice p) false], ?_, h2, ?_, .inr rfl, by simp, by simp, ?_⟩
        · simp [Nf.Firewall.hasExternal, hg, hu, hf, h1]
        · intro f j t h
          rw [h3] at h
          rw [lastUse_append]
          by_cases he : f = reverse (flow p)
          · subst he
            simp only [↓reduceIte, Option.some.injEq, Prod.mk.injEq] at h
            rw [if_pos ⟨hl4, .inr ⟨hext, by simp, rfl⟩⟩, h.2]
          · rw [if_neg he] at h
            rw [if_neg]
            · exact hk f j t h
            · rintro ⟨_, ⟨h5, _⟩ | ⟨_, _, h5⟩⟩
              · exact h5 hext
              · exact he h5.symm
        · intro _ _ _
          refine ⟨t0, hk _ _ _ hl, ?_⟩
          simpa [Expiring.fresh] using hf
  · have hflow : (⟨Nf.ld32 p.data (14 + 12), Nf.ld32 p.data (14 + 16), Nf.ld16 p.data 34, Nf.ld16 p.data (34 + 2),
        (p.data (14 + 9)).toNat⟩ : Flow) = flow p := by
      simp only [Nf.ld32_dword, Nf.ld16_word, flow, PacketSpec.byte]
    simp only [Nf.Firewall.handle, Nf.getIpv4Header_eq, hip, Nf.getTcpudpHeader_eq p hip, hl4, hext, if_true, if_false,
      hflow]
    have hstep : ∃ tb', Nf.Firewall.learnInternal tb p.time (flow p) = some tb' ∧ Nf.Inv size exp tb' ∧
        ∀ f j t, Nf.look tb' f = some (j, t) → (f = flow p ∧ t = p.time) ∨ (f ≠ flow p ∧ Nf.look tb f = some (j, t)) := by
      cases hg : tb.map.get (flow p) with
      | none =>
        obtain ⟨tb', o, h1, h2, h3⟩ := Nf.insert_spec inv (Nf.look_none_of_get hg) ht
        refine ⟨tb', by simp [Nf.Firewall.learnInternal, hg, h1], h2, ?_⟩
        intro f j t hf
        rcases h3 with ⟨_, h4, _⟩ | ⟨i, _, _, _, h5, h6⟩
        · right
          rw [h4] at hf
          exact ⟨fun he => by subst he; rw [Nf.look_none_of_get hg] at hf; exact absurd hf (by simp), hf⟩
        · by_cases he : f = flow p
          · subst he; rw [h5] at hf; cases hf; exact .inl ⟨rfl, rfl⟩
          · right
            rw [h6 f he] at hf
            refine ⟨he, ?_⟩
            cases hlk : Nf.look tb f with
            | none => rw [hlk] at hf; cases hf
            | some x =>
              rw [hlk] at hf
              exact (Option.filter_eq_some_iff.1 hf).1
      | some i =>
        obtain ⟨t0, _, hl⟩ := Nf.look_of_get inv hg
        obtain ⟨tb', h1, h2, _, _, h3⟩ := Nf.refresh_spec inv hl ht
        refine ⟨tb', by simp [Nf.Firewall.learnInternal, hg, h1], h2, ?_⟩
        intro f j t hf
        rw [h3] at hf
        by_cases he : f = flow p
        · rw [if_pos he] at hf; cases hf; exact .inl ⟨he, rfl⟩
        · rw [if_neg he] at hf; exact .inr ⟨he, hf⟩
    obtain ⟨tb', h1, h2, h3⟩ := hstep
    refine ⟨tb', [Out.transmit p (Nf.otherDevice p) false], by simp [h1], h2, ?_, .inr rfl, by simp, by simp, ?_⟩
    · intro f j t hf
      rw [lastUse_append]
      rcases h3 f j t hf with ⟨rfl, rfl⟩ | ⟨hne, hf⟩
      · rw [if_pos ⟨hl4, .inl ⟨hext, rfl⟩⟩]
      · rw [if_neg]
        · exact hk f j t hf
        · rintro ⟨_, ⟨_, h5⟩ | ⟨h5, _⟩⟩
          · exact hne h5.symm
          · exact hext h5
    · intro _ h; exact absurd h id

theorem firewall_history_run {size ext exp : Nat} : ∀ (ps : List Packet) {tb tb' : Table Flow} {outs : List (List Out)}
    {tr : List (Packet × List Out)}, Nf.Inv size exp tb → Known ext tb tr → (∀ p ∈ ps, p.time < timeMax) →
    Nf.Firewall.run ext tb ps = some (tb', outs) →
    ∀ (n : Nat) (p : Packet) (o : List Out), ps[n]? = some p → outs[n]? = some o →
      (o = [] ∨ o = [Out.transmit p (Nf.otherDevice p) false]) ∧
      (¬ isTcpUdp p → o = []) ∧ (isTcpUdp p → p.device ≠ ext → o ≠ []) ∧
      (isTcpUdp p → p.device = ext → o ≠ [] →
        ∃ t, lastUse ext (reverse (flow p)) (tr ++ (ps.zip outs).take n) = some t ∧ p.time ≤ t + exp) := by
  intro ps
  induction ps with
  | nil => intro tb tb' outs tr _ _ _ _ n p o h; simp at h
  | cons q ps ih =>
    intro tb tb' outs tr inv hk hp hr n p o h1 h2
    obtain ⟨tb1, o1, e1, inv1, hk1, hprops⟩ := firewall_known_step inv hk (hp q (by simp))
    simp only [Nf.Firewall.run, e1, Option.bind_eq_bind, Option.bind_some] at hr
    cases hrest : Nf.Firewall.run ext tb1 ps with
    | none => rw [hrest] at hr; cases hr
    | some x =>
      obtain ⟨tb2, os⟩ := x
      rw [hrest] at hr
      simp only [Option.bind_some, Option.some.injEq, Prod.mk.injEq] at hr
      obtain ⟨rfl, rfl⟩ := hr
      cases n with
      | zero =>
        simp only [List.getElem?_cons_zero, Option.some.injEq] at h1 h2
        subst h1; subst h2
        simpa using hprops
      | succ n =>
        simp only [List.getElem?_cons_succ] at h1 h2
        have := ih inv1 hk1 (fun x hx => hp x (by simp [hx])) hrest n p o h1 h2
        simpa using this

/-- C42 (safety, any packet times): no packet sequence makes the firewall violate a
precondition of its data structures. -/
theorem C42_never_violates_contracts (size exp ext : Nat) (ps : List Packet) (hp : ∀ p ∈ ps, p.time < timeMax) :
    ∃ tb tb' outs, Nf.Firewall.init exp size = some tb ∧ Nf.Firewall.run ext tb ps = some (tb', outs) ∧
      outs.length = ps.length := by
  obtain ⟨tb0, e, inv, hl⟩ := Nf.inv_alloc Flow.zero size exp
  have key : ∀ (ps : List Packet) (tb : Table Flow) (tr : List (Packet × List Out)), Nf.Inv size exp tb →
      Known ext tb tr → (∀ p ∈ ps, p.time < timeMax) →
      ∃ tb' outs, Nf.Firewall.run ext tb ps = some (tb', outs) ∧ outs.length = ps.length := by
    intro ps
    induction ps with
    | nil => intro tb tr _ _ _; exact ⟨tb, [], rfl, rfl⟩
    | cons p ps ih =>
      intro tb tr inv hk hp
      obtain ⟨tb1, o, h1, h2, h3, _⟩ := firewall_known_step inv hk (hp p (by simp))
      obtain ⟨tb2, os, h4, h5⟩ := ih tb1 _ h2 h3 (fun q hq => hp q (by simp [hq]))
      exact ⟨tb2, o :: os, by simp [Nf.Firewall.run, h1, h4], by simp [h5]⟩
  obtain ⟨tb', outs, h1, h2⟩ := key ps tb0 [] inv (fun f i t h => by rw [hl] at h; cases h) hp
  exact ⟨tb0, tb', outs, e, h1, h2⟩

/-- C42 (security, any packet times): in every run, each packet is dropped or sent
unmodified to the other device; internal TCP/UDP packets are never dropped, other
traffic always is; and an external packet passes only if its reversed flow was used
(sent from inside, or admitted from outside) and the last such use is no older than
the expiration time. -/
theorem C42_external_only_if_solicited (size exp ext : Nat) (ps : List Packet)
    (hp : ∀ p ∈ ps, p.time < timeMax ∧ p.device < 2) (tb tb' : Table Flow) (outs : List (List Out))
    (h0 : Nf.Firewall.init exp size = some tb) (h1 : Nf.Firewall.run ext tb ps = some (tb', outs))
    (n : Nat) (p : Packet) (o : List Out) (hn : ps[n]? = some p) (ho : outs[n]? = some o) :
    (o = [] ∨ o = [Out.transmit p (1 - p.device) false]) ∧
    (¬ isTcpUdp p → o = []) ∧ (isTcpUdp p → p.device ≠ ext → o ≠ []) ∧
    (isTcpUdp p → p.device = ext → o ≠ [] →
      ∃ t, lastUse ext (reverse (flow p)) ((ps.zip outs).take n) = some t ∧ p.time ≤ t + exp) := by
  obtain ⟨tb0, e, inv, hl⟩ := Nf.inv_alloc Flow.zero size exp
  have : tb0 = tb := by
    have h0' : Table.alloc Flow.zero size exp = some tb := h0
    rw [e] at h0'; cases h0'; rfl
  subst this
  have := firewall_history_run (tr := []) ps inv (fun f i t h => by rw [hl] at h; cases h) (fun p h => (hp p h).1) h1 n p o hn ho
  rw [other_device (hp p (List.mem_of_getElem? hn)).2] at this
  simpa using this

/-- A sample packet: UDP over IPv4, with one-byte addresses and ports. -/
def samplePacket (src dst sport dport device time : Nat) : Packet where
  data := fun i => if i = 12 then 8 else if i = 23 then 17 else if i = 26 then UInt8.ofNat src
    else if i = 30 then UInt8.ofNat dst else if i = 34 then UInt8.ofNat sport else if i = 36 then UInt8.ofNat dport else 0
  length := 60
  time := time
  device := device

/-- Non-vacuity: out, matching reply, unsolicited packet, late reply. -/
example : (∀ p ∈ [samplePacket 1 2 3 4 0 5, samplePacket 2 1 4 3 1 9, samplePacket 2 1 4 9 1 9, samplePacket 2 1 4 3 1 99],
      p.time < timeMax ∧ p.device < 2) ∧
    MonoFrom 0 [samplePacket 1 2 3 4 0 5, samplePacket 2 1 4 3 1 9, samplePacket 2 1 4 9 1 9, samplePacket 2 1 4 3 1 99] ∧
    (outputs 1 1 10 []
      [samplePacket 1 2 3 4 0 5, samplePacket 2 1 4 3 1 9, samplePacket 2 1 4 9 1 9, samplePacket 2 1 4 3 1 99]).map List.length
      = [1, 1, 0, 0] := by
  refine ⟨?_, ?_, by decide⟩
  · simp [samplePacket, timeMax]
  · simp [MonoFrom, samplePacket]

end Verif.Props
