/- Storms and delivery in networks of bridges, for property C73. -/
import Verif.Props.BridgeNetTrace

set_option autoImplicit false

namespace Verif.Props
open Verif.Nf.BridgeNet
open Verif.BridgeNetSpec

namespace Networked
open Verif.Nf (Packet)
open Verif.Nf.Runtime (sent)
open Verif.PacketSpec (dword word byte)

variable {net : Net}

theorem addr_packet (p : Packet) (i : Nat) : BridgeSpec.addr p i = addr p.data i := by
  simp only [BridgeSpec.addr, addr, dword, word, byte, Nat.add_assoc, show 4 + 1 = 5 from rfl]
  omega

theorem addr_congr {m m' : Mem} {i : Nat} (h : ∀ x < 6, m (i + x) = m' (i + x)) : addr m i = addr m' i := by
  simp only [addr]
  rw [show m i = m' i from h 0 (by omega), h 1 (by omega), h 2 (by omega), h 3 (by omega), h 4 (by omega), h 5 (by omega)]

theorem received_dst {f : Flying} {data : Mem} (time d : Nat) (h : 34 ≤ f.frame.length)
    (hd : ∀ x < f.frame.length, data x = f.frame.data x) : BridgeSpec.dst (received f data time d) = dst f.frame := by
  rw [BridgeSpec.dst, addr_packet]
  exact addr_congr fun x hx => hd _ (by omega)

theorem received_src {f : Flying} {data : Mem} (time d : Nat) (h : 34 ≤ f.frame.length)
    (hd : ∀ x < f.frame.length, data x = f.frame.data x) : BridgeSpec.src (received f data time d) = src f.frame := by
  rw [BridgeSpec.src, addr_packet]
  exact addr_congr fun x hx => hd _ (by omega)

theorem stamped_dst {n : Nat} {mac : Nat → List UInt8} {m : Mem} (h : Stamped n mac m) (l : Nat) :
    ∃ d < n, dst ⟨m, l⟩ = number (endpointMac d) ∧ src ⟨m, l⟩ = number (mac d) := by
  obtain ⟨d, hd, h⟩ := h
  refine ⟨d, hd, addr_congr fun x hx => ?_, ?_⟩
  · rw [Nat.zero_add]; exact (h x hx).1
  · show addr m 6 = addr _ 0
    have e : addr m 6 = addr (fun i => m (6 + i)) 0 := rfl
    rw [e]
    exact addr_congr fun x hx => by rw [Nat.zero_add]; exact (h x hx).2

theorem endpoint_ne (n : Nat) : number (endpointMac n) ≠ BridgeSpec.stpAddr := by
  simp only [number, addr, endpointMac, BridgeSpec.stpAddr]
  simp
  omega

/-- The contents of the copies: those of the frame, or a message's. -/
theorem effect_frame {c : BridgeSpec.Config} {mac : Nat → List UInt8} {t t' : BridgeSpec.State} {p : Packet} {m : Mem}
    {out : Nat → Option Nat} (h : Effect c mac t p t' m out) : (BridgeSpec.isData c t p ∧ m = p.data) ∨
      Stamped c.devices mac m ∨ ∀ o, out o = none := by
  cases h with
  | toOne _ _ h => exact .inl ⟨h, rfl⟩
  | toNone _ h => exact .inl ⟨h, rfl⟩
  | toAll _ h => exact .inl ⟨h, rfl⟩
  | periodic _ _ _ h => exact .inr (.inl h)
  | received _ _ _ _ _ h =>
    rcases h with h | h
    · exact .inr (.inr h)
    · exact .inr (.inl h.1)

/-- The addresses of the copies that a bridge sends. -/
theorem onward_addr {t : Nat → BridgeSpec.State} {f : Flying} {b d time : Nat} {data : Mem}
    {r : Nf.Bridge.State × Mem × List Nat} {t' : BridgeSpec.State} (hlen : 34 ≤ f.frame.length)
    (hdata : ∀ x < f.frame.length, data x = f.frame.data x)
    (he : Effect (cfg net b) (net.mac b) (t b) (received f data time d) t' r.2.1 (fun o => sent d r.2.2 o)) {g : Flying}
    (hg : g ∈ onward net b f r.2.1 (copies (net.devices b) d r.2.2)) :
    (dst g.frame = dst f.frame ∧ src g.frame = src f.frame) ∨
      ∃ d < net.devices b, dst g.frame = number (endpointMac d) ∧ src g.frame = number (net.mac b d) := by
  obtain ⟨o, l, e, h1, h2, rfl⟩ := mem_onward.1 hg
  rcases effect_frame he with ⟨_, h3⟩ | h3 | h3
  · left
    rw [h3]
    exact ⟨addr_congr fun x hx => hdata _ (by omega), addr_congr fun x hx => hdata _ (by omega)⟩
  · exact .inr (stamped_dst h3 l)
  · have := (mem_copies.1 h1).2
    rw [h3] at this
    cases this

/-- The spanning tree code has no effect. -/
structure Inert (net : Net) (s : St) (t : Nat → BridgeSpec.State) : Prop where
  wire : ∀ g ∈ s.wire, dst g.frame ≠ BridgeSpec.stpAddr
  blocked : ∀ b < net.bridges, (t b).blocked = List.replicate (net.devices b) false
  stp : ∀ b < net.bridges, (s.bridge b).stp.root = (net.config b).bid ∧ (s.bridge b).stp.rootCost = 0 ∧
    (s.bridge b).stp.disabled = List.replicate (net.devices b) false

theorem process_stp {macs : Nf.Runtime.Macs} {n : Nat} {s : Nf.Bridge.State} {p : Packet} {r : Nf.Bridge.State × Mem × List Nat}
    (h : process macs n s p = some r) (hd : BridgeSpec.dst p ≠ BridgeSpec.stpAddr) :
    r.1.stp.root = s.stp.root ∧ r.1.stp.rootCost = s.stp.rootCost ∧ r.1.stp.disabled = s.stp.disabled := by
  have hb : Nf.Bridge.isStpDst p.data = false := by
    cases h : Nf.Bridge.isStpDst p.data with
    | false => rfl
    | true => exact absurd ((isStpDst_iff p).1 h) hd
  simp only [process, Option.bind_eq_bind, Option.bind_eq_some_iff, Prod.exists, Option.some.injEq] at h
  obtain ⟨s', outs, h1, _, _, _, rfl⟩ := h
  simp only [Nf.Bridge.handle, Nf.Bridge.stpHandle, hb] at h1
  split at h1
  · simp only [Option.bind_eq_bind, Option.bind_some, Option.some.injEq, Prod.mk.injEq] at h1
    rw [← h1.1]; exact ⟨rfl, rfl, rfl⟩
  · simp only [Bool.not_false, ↓reduceIte, Option.bind_eq_bind, Option.bind_some, Nf.Bridge.handleData,
      Option.bind_eq_some_iff, Prod.exists, Option.some.injEq, Prod.mk.injEq] at h1
    obtain ⟨_, _, _, _, _, h3, _⟩ := h1
    rw [← h3]; exact ⟨rfl, rfl, rfl⟩

theorem effect_blocked {c : BridgeSpec.Config} {mac : Nat → List UInt8} {t t' : BridgeSpec.State} {p : Packet} {m : Mem}
    {out : Nat → Option Nat} (h : Effect c mac t p t' m out) (hd : BridgeSpec.dst p ≠ BridgeSpec.stpAddr) :
    t'.blocked = t.blocked := by
  cases h with
  | toOne => exact learn_blocked _ _ _
  | toNone => exact learn_blocked _ _ _
  | toAll => exact learn_blocked _ _ _
  | periodic => rfl
  | received _ _ _ _ h => exact absurd h hd

theorem inert (w : Wired net) {s : St} {t : Nat → BridgeSpec.State} (h : Exec net s t)
    (hosts : ∀ e ∈ s.injected, dst e.2 ≠ BridgeSpec.stpAddr) : Inert net s t := by
  induction h with
  | start s h =>
    refine ⟨by rw [h.wire]; simp, fun b _ => rfl, fun b hb => ?_⟩
    have hi := h.bridge b hb
    have h2 := w.two b hb
    simp only [Nf.Bridge.init, if_neg (show ¬ net.devices b < 2 by omega), Option.bind_eq_bind,
      Option.bind_eq_some_iff, Option.some.injEq] at hi
    obtain ⟨_, _, hi⟩ := hi
    rw [← hi]
    exact ⟨rfl, rfl, rfl⟩
  | @inject s t b d f he _ _ _ _ ih =>
    have ih := ih fun e h => hosts e (by simp [h])
    refine ⟨?_, ih.blocked, ih.stp⟩
    intro g hg
    rcases List.mem_append.1 hg with hg | hg
    · exact ih.wire g hg
    · rw [List.mem_singleton.1 hg]
      exact hosts ((b, d), f) (by simp)
  | @handle s t pre post f b d rest time data r t' he h1 h2 h3 h4 h5 h6 h7 h8 h9 h10 ih =>
    have ih := ih hosts
    have hf : BridgeSpec.dst (received f data time d) ≠ BridgeSpec.stpAddr := by
      rw [received_dst time d h5 h6]; exact ih.wire f (by rw [h1]; simp)
    refine ⟨?_, ?_, ?_⟩
    · intro g hg
      simp only [St.after, List.mem_append] at hg
      rcases hg with (hg | hg) | hg
      · exact ih.wire g (by rw [h1]; simp [hg])
      · exact ih.wire g (by rw [h1]; simp [hg])
      · rcases onward_addr (t := t) h5 h6 h9 hg with ⟨h, _⟩ | ⟨d', _, h, _⟩
        · rw [h]; exact ih.wire f (by rw [h1]; simp)
        · rw [h]; exact endpoint_ne d'
    · intro x hx
      by_cases hxb : x = b
      · subst hxb
        simp only [if_true]
        rw [effect_blocked h9 hf]; exact ih.blocked x hx
      · simp only [if_neg hxb]; exact ih.blocked x hx
    · intro x hx
      simp only [St.after]
      by_cases hxb : x = b
      · subst hxb
        simp only [if_true]
        have := process_stp h8 hf
        rw [this.1, this.2.1, this.2.2]; exact ih.stp x hx
      · simp only [if_neg hxb]; exact ih.stp x hx

/-! ### Storms -/

/-- No bridge knows where the destination is. -/
structure Unlearned (net : Net) (s : St) (t : Nat → BridgeSpec.State) : Prop where
  port : ∀ b < net.bridges, ∀ a, BridgeSpec.group a ∨ Endpoint net a → (t b).port a = none
  wire : ∀ g ∈ s.wire, ¬ Endpoint net (src g.frame)

theorem unlearned {s : St} {t : Nat → BridgeSpec.State} (h : Exec net s t)
    (hosts : ∀ e ∈ s.injected, ¬ Endpoint net (src e.2))
    (devs : ∀ b < net.bridges, ∀ d < net.devices b, ¬ Endpoint net (number (net.mac b d))) : Unlearned net s t := by
  induction h with
  | start s h => exact ⟨fun b _ a _ => rfl, by rw [h.wire]; simp⟩
  | @inject s t b d f he _ _ _ _ ih =>
    have ih := ih fun e h => hosts e (by simp [h])
    refine ⟨ih.port, ?_⟩
    intro g hg
    rcases List.mem_append.1 hg with hg | hg
    · exact ih.wire g hg
    · rw [List.mem_singleton.1 hg]
      exact hosts ((b, d), f) (by simp)
  | @handle s t pre post f b d rest time data r t' he h1 h2 h3 h4 h5 h6 h7 h8 h9 h10 ih =>
    have ih := ih hosts
    refine ⟨?_, ?_⟩
    · intro x hx a ha
      by_cases hxb : x = b
      · subst hxb
        simp only [if_true]
        cases hp : t'.port a with
        | none => rfl
        | some q =>
          exfalso
          rcases effect_port h9 hp with h | ⟨_, h, hg⟩
          · rw [ih.port x hx a ha] at h; cases h
          · rw [received_src time d h5 h6] at h
            rcases ha with ha | ha
            · exact hg ha
            · exact ih.wire f (by rw [h1]; simp) (by rw [h]; exact ha)
      · simp only [if_neg hxb]; exact ih.port x hx a ha
    · intro g hg
      simp only [St.after, List.mem_append] at hg
      rcases hg with (hg | hg) | hg
      · exact ih.wire g (by rw [h1]; simp [hg])
      · exact ih.wire g (by rw [h1]; simp [hg])
      · rcases onward_addr (t := t) h5 h6 h9 hg with ⟨_, h⟩ | ⟨d', hd', _, h⟩
        · rw [h]; exact ih.wire f (by rw [h1]; simp)
        · rw [h]; exact devs b h3 d' hd'

theorem count_onward {b d n : Nat} (hl : Linked net b (n + 1)) (w : Wired net) (f : Flying) (m : Mem) (ls : List Nat)
    (hs : ∀ o < net.devices b, o ≠ d → ∃ l, sent d ls o = some l) :
    n ≤ (onward net b f m (copies (net.devices b) d ls)).length := by
  obtain ⟨l, h1, h2, h3⟩ := hl
  have hk : (onward net b f m (copies (net.devices b) d ls)).length =
      ((onward net b f m (copies (net.devices b) d ls)).map key).length := by simp
  rw [hk, onward_keys]
  -- the linked devices other than `d` are among those with a copy
  have h4 : (l.erase d).length ≥ n := by
    rw [List.length_erase]; split <;> omega
  refine le_trans h4 ?_
  have h5 : (l.erase d).Nodup := h1.erase d
  have h6 : ((l.erase d).map fun o => (f.id, (net.link (b, o)).getD (0, 0) :: f.route)).Nodup := by
    refine List.Nodup.map_on ?_ h5
    intro o ho o' ho' he
    obtain ⟨e, h7⟩ := h3 o (List.mem_of_mem_erase ho)
    obtain ⟨e', h8⟩ := h3 o' (List.mem_of_mem_erase ho')
    simp only [h7, h8, Option.getD_some, Prod.mk.injEq, List.cons.injEq, true_and, and_true] at he
    subst he
    have := (w.sym _ _ h7).symm.trans (w.sym _ _ h8)
    simp only [Option.some.injEq, Prod.mk.injEq, true_and] at this
    exact this
  have h7 := List.Nodup.subperm (l₂ := (List.range (net.devices b)).filterMap fun o =>
      (sent d ls o).bind fun _ => (net.link (b, o)).map fun e => (f.id, e :: f.route)) h6 ?_
  · simpa using h7.length_le
  · intro k hk
    obtain ⟨o, ho, rfl⟩ := List.mem_map.1 hk
    have ho' := (h1.mem_erase_iff).1 ho
    obtain ⟨e, h8⟩ := h3 o ho'.2
    have h9 := (w.exist _ _ _ h8).2
    obtain ⟨l', h10⟩ := hs o h9 ho'.1
    exact List.mem_filterMap.2 ⟨o, List.mem_range.2 h9, by simp [h10, h8]⟩

open Classical in
/-- A bridge sends a frame that no bridge knows the destination of, or the message that it
makes of it, to all other devices. -/
theorem astray_step {s : St} {t : Nat → BridgeSpec.State} (w : Wired net) (hi : Inert net s t) (hu : Unlearned net s t)
    {f : Flying} {b d time n : Nat} {data : Mem} {r : Nf.Bridge.State × Mem × List Nat} {t' : BridgeSpec.State}
    (hb : b < net.bridges) (hf : f ∈ s.wire) (ha : Astray net f.frame) (hlen : 34 ≤ f.frame.length)
    (hdata : ∀ x < f.frame.length, data x = f.frame.data x)
    (he : Effect (cfg net b) (net.mac b) (t b) (received f data time d) t' r.2.1 (fun o => sent d r.2.2 o))
    (hl : Linked net b (n + 1)) :
    n ≤ (onward net b f r.2.1 (copies (net.devices b) d r.2.2)).countP fun g => decide (Astray net g.frame) := by
  have hall : ∀ o < net.devices b, o ≠ d → ∃ l, sent d r.2.2 o = some l := by
    have hport : (BridgeSpec.learn (cfg net b) (t b) (received f data time d)).port (dst f.frame) = none := by
      unfold BridgeSpec.learn
      have h0 : (t b).port (dst f.frame) = none := hu.port b hb _ (ha.imp And.left id)
      split
      · exact h0
      · rename_i hg
        simp only
        rw [if_neg, h0]
        intro h
        rw [← h] at hg
        rcases ha with ha | ha
        · exact hg ha.1
        · rw [received_src time d hlen hdata] at h
          exact hu.wire f hf (by rw [← h]; exact ha)
    intro o ho hod
    have hdst := received_dst (data := data) time d hlen hdata
    cases he with
    | toOne _ e _ h1 => rw [hdst, hport] at h1; cases h1
    | toNone _ _ h1 => rw [hdst, hport] at h1; cases h1
    | toAll _ _ h1 =>
      refine ⟨_, (h1 o).trans (if_pos ⟨ho, hod, ?_⟩)⟩
      rw [hi.blocked b hb, List.getElem?_replicate, if_pos ho]
    | periodic _ _ _ _ h1 => exact ⟨_, (h1 o).trans (if_pos ⟨ho, hod⟩)⟩
    | received _ _ _ _ h1 => rw [hdst] at h1; exact absurd h1 (hi.wire f hf)
  have hcount := count_onward hl w f r.2.1 r.2.2 hall
  rw [List.countP_eq_length.2]
  · exact hcount
  · intro g hg
    refine decide_eq_true ?_
    rcases onward_addr (t := t) hlen hdata he hg with ⟨h, _⟩ | ⟨d', hd', h, _⟩
    · unfold Astray; rw [h]; exact ha
    · exact .inr ⟨b, hb, d', hd', h⟩

open Classical in
theorem storm (w : Wired net) {s : St} {t : Nat → BridgeSpec.State} (h : Exec net s t) (k : Nat)
    (hl : ∀ b < net.bridges, Linked net b (k + 2))
    (hosts : ∀ e ∈ s.injected, dst e.2 ≠ BridgeSpec.stpAddr ∧ ¬ Endpoint net (src e.2))
    (devs : ∀ b < net.bridges, ∀ d < net.devices b, ¬ Endpoint net (number (net.mac b d))) :
    s.injected.countP (fun e => decide (Astray net e.2)) + k * s.handled.countP (fun g => decide (Astray net g.1.frame)) ≤
      s.wire.countP (fun g => decide (Astray net g.frame)) := by
  induction h with
  | start s h => simp [h.injected, h.handled]
  | @inject s t b d f he _ _ _ _ ih =>
    have ih := ih fun e h => hosts e (by simp [h])
    simp only [List.countP_append, List.countP_singleton] at ih ⊢
    omega
  | @handle s t pre post f b d rest time data r t' he h1 h2 h3 h4 h5 h6 h7 h8 h9 h10 ih =>
    have ih := ih hosts
    have hmem : f ∈ s.wire := by rw [h1]; simp
    rw [h1] at ih
    simp only [St.after, List.countP_append, List.countP_cons, List.countP_nil, zero_add] at ih ⊢
    by_cases ha : Astray net f.frame
    · have := astray_step (n := k + 1) w (inert w he fun e h => (hosts e h).1) (unlearned he (fun e h => (hosts e h).2) devs)
        h3 hmem ha h5 h6 h9 (hl b h3)
      simp only [ha, decide_true, if_true] at ih ⊢
      rw [Nat.mul_add, Nat.mul_one]
      omega
    · simp only [ha, decide_false, Bool.false_eq_true, if_false, add_zero] at ih ⊢
      omega

/-- A bridge can always handle a frame. -/
theorem progress (w : Wired net) {s : St} (h : Reachable net s) {f : Flying} (hf : f ∈ s.wire) {time : Nat}
    (ht : ∀ b, s.clock b ≤ time) (ht2 : time < 2 ^ 64 - 1) :
    ∃ s', Step net s s' ∧ (∀ b, s'.clock b ≤ time) ∧ s'.injected = s.injected ∧
      ∃ u, s'.handled = s.handled ++ [(f, u)] := by
  obtain ⟨t, _, hb⟩ := exec_of_reachable w h
  obtain ⟨b, d, rest, h1, h2, h3, h4⟩ := hb.wire f hf
  obtain ⟨pre, post, h5⟩ := List.append_of_mem hf
  obtain ⟨s', m, ls, t', h6, _, _⟩ := process_effect (mac := net.mac b) (hb.rel b h2) (w.two b h2)
    (hb.ports b h2) (p := received f f.frame.data time d) (ht b)
    (by show time < Verif.IndexPoolSpec.timeMax; unfold Verif.IndexPoolSpec.timeMax; omega) h3 (by show max _ _ ≠ 0; omega)
  refine ⟨_, .handle s pre post f b d rest time f.frame.data (s', m, ls) h5 h1 (ht b) ht2 (fun _ _ => rfl) h6, ?_, rfl, _, rfl⟩
  intro x
  simp only [St.after]
  split
  · exact le_refl _
  · exact ht x

/-! ### Networks without loops -/

theorem once (w : Wired net) (lf : LoopFree net) {s : St} (tr : Traced net s) {g h : Flying × Bool} (hg : g ∈ s.handled)
    (hh : h ∈ s.handled) {b d d' : Nat} {r r' : List Port} (hid : g.1.id = h.1.id) (h1 : g.1.route = (b, d) :: r)
    (h2 : h.1.route = (b, d') :: r') : d = d' ∧ r = r' := by
  obtain ⟨h3, e, h4, h5⟩ := tr.handled g hg
  obtain ⟨h3', e', h4', h5'⟩ := tr.handled h hh
  rw [hid, h4'] at h4
  cases h4
  rw [h1] at h3 h5
  rw [h2] at h3' h5'
  exact route_unique w lf r r' b d d' _ h3 h3' h5 h5'

theorem nodup_map_of_key {α β γ : Type} {l : List α} (k : α → β) (f : α → γ) (h : (l.map k).Nodup)
    (hf : ∀ a ∈ l, ∀ b ∈ l, f a = f b → k a = k b) : (l.map f).Nodup := by
  have h0 : l.Nodup := h.of_map
  refine List.Nodup.map_on ?_ h0
  intro a ha b hb he
  exact List.inj_on_of_nodup_map h ha hb (hf a ha b hb he)

/-! ### Delivery -/

/-- Hosts do not move, and use addresses of their own. -/
structure Placed (net : Net) (home : Nat → Option Port) (s : St) (t : Nat → BridgeSpec.State) : Prop where
  port : ∀ b < net.bridges, ∀ a d q, (t b).port a = some d → home a = some q →
    ∃ r, Route net ((b, d) :: r) ∧ ((b, d) :: r).getLast? = some q
  wire : ∀ g ∈ s.wire, BridgeSpec.group (src g.frame) ∨ ∀ q, home (src g.frame) = some q → g.route.getLast? = some q

theorem placed (w : Wired net) {home : Nat → Option Port} {s : St} {t : Nat → BridgeSpec.State} (h : Exec net s t)
    (hosts : ∀ e ∈ s.injected, BridgeSpec.group (src e.2) ∨ home (src e.2) = some e.1)
    (devs : ∀ b < net.bridges, ∀ d < net.devices b, home (number (net.mac b d)) = none) : Placed net home s t := by
  induction h with
  | start s h =>
    refine ⟨fun b _ a d q h => ?_, by rw [h.wire]; simp⟩
    cases h
  | @inject s t b d f he _ _ _ _ ih =>
    have ih := ih fun e h => hosts e (by simp [h])
    refine ⟨ih.port, ?_⟩
    intro g hg
    rcases List.mem_append.1 hg with hg | hg
    · exact ih.wire g hg
    · rw [List.mem_singleton.1 hg]
      refine (hosts ((b, d), f) (by simp)).imp id ?_
      intro h q hq
      rw [h] at hq
      exact hq
  | @handle s t pre post f b d rest time data r t' he h1 h2 h3 h4 h5 h6 h7 h8 h9 h10 ih =>
    have ih := ih hosts
    have tr := (traced w he).wire f (by rw [h1]; simp)
    refine ⟨?_, ?_⟩
    · intro x hx a q p hp ha
      by_cases hxb : x = b
      · subst hxb
        simp only [if_true] at hp
        rcases effect_port h9 hp with h | ⟨h, hs, hg⟩
        · exact ih.port x hx a q p h ha
        · rw [received_src time d h5 h6] at hs
          rcases ih.wire f (by rw [h1]; simp) with h11 | h11
          · exact absurd (hs ▸ h11) hg
          · have h12 := h11 p (by rw [hs]; exact ha)
            have h : q = d := h
            subst h
            rw [h2] at tr h12
            exact ⟨rest, tr.1, h12⟩
      · simp only [if_neg hxb] at hp; exact ih.port x hx a q p hp ha
    · intro g hg
      simp only [St.after, List.mem_append] at hg
      rcases hg with (hg | hg) | hg
      · exact ih.wire g (by rw [h1]; simp [hg])
      · exact ih.wire g (by rw [h1]; simp [hg])
      · obtain ⟨o, l, e, _, _, hge⟩ := mem_onward.1 hg
        have hlast : g.route.getLast? = f.route.getLast? := by
          rw [hge]
          show (e :: f.route).getLast? = _
          rw [h2, List.getLast?_cons_cons]
        rcases onward_addr (t := t) h5 h6 h9 hg with ⟨_, h⟩ | ⟨d', hd', _, h⟩
        · rw [h, hlast]; exact ih.wire f (by rw [h1]; simp)
        · right
          intro q hq
          rw [h, devs b h3 d' hd'] at hq
          cases hq

theorem groups_unlearned {s : St} {t : Nat → BridgeSpec.State} (h : Exec net s t) :
    ∀ b < net.bridges, ∀ a, BridgeSpec.group a → (t b).port a = none := by
  induction h with
  | start s h => exact fun b _ a _ => rfl
  | inject b d f he _ _ _ _ ih => exact ih
  | @handle s t pre post f b d rest time data r t' he h1 h2 h3 h4 h5 h6 h7 h8 h9 h10 ih =>
    intro x hx a ha
    by_cases hxb : x = b
    · subst hxb
      simp only [if_true]
      cases hp : t'.port a with
      | none => rfl
      | some q =>
        exfalso
        rcases effect_port h9 hp with h | ⟨_, _, hg⟩
        · rw [ih x hx a ha] at h; cases h
        · exact hg ha
    · simp only [if_neg hxb]; exact ih x hx a ha

/-- A frame is under way on `way`, which leads to `q`; or has arrived; or became a message. -/
def UnderWay (s : St) (i : Nat) (f : Frame) (q : Port) (way : List Port) : Prop :=
  (∃ g ∈ s.handled, g.1.id = i ∧ g.2 = true) ∨
  (∃ g ∈ s.left, g.id = i ∧ g.route.head? = some q ∧ Same g.frame f) ∨
  ∃ g ∈ s.wire, g.id = i ∧ Same g.frame f ∧ g.route ≠ [] ∧ ∃ x, way = x ++ g.route

theorem under_way (w : Wired net) (lf : LoopFree net) {home : Nat → Option Port} {s : St} {t : Nat → BridgeSpec.State}
    (h : Exec net s t)
    (hosts : ∀ e ∈ s.injected, dst e.2 ≠ BridgeSpec.stpAddr ∧ (BridgeSpec.group (src e.2) ∨ home (src e.2) = some e.1))
    (devs : ∀ b < net.bridges, ∀ d < net.devices b, home (number (net.mac b d)) = none)
    {i : Nat} {p : Port} {f : Frame} (hi : s.injected[i]? = some (p, f)) {qb qd qo : Nat} {way : List Port}
    (hq : home (dst f) = none ∨ home (dst f) = some (qb, qo))
    (hgroup : home (dst f) = none → BridgeSpec.group (dst f))
    (hw : Route net ((qb, qd) :: way)) (hp : ((qb, qd) :: way).getLast? = some p) (hne : qo ≠ qd)
    (hex : qo < net.devices qb) (hout : net.link (qb, qo) = none) :
    UnderWay s i f (qb, qo) ((qb, qd) :: way) := by
  induction h with
  | start s h => rw [h.injected] at hi; cases hi
  | @inject s t b d f' he _ _ _ h60 ih =>
    by_cases hil : i < s.injected.length
    · rw [List.getElem?_append_left hil] at hi
      rcases ih (fun e h => hosts e (by simp [h])) hi with h | h | ⟨g, h1, h2⟩
      · exact .inl h
      · exact .inr (.inl h)
      · exact .inr (.inr ⟨g, by simp [h1], h2⟩)
    · rw [List.getElem?_append_right (by omega)] at hi
      have h0 : i = s.injected.length := by
        by_contra h
        rw [List.getElem?_eq_none (by simp; omega)] at hi
        cases hi
      subst h0
      simp only [Nat.sub_self, List.getElem?_cons_zero, Option.some.injEq, Prod.mk.injEq] at hi
      obtain ⟨rfl, rfl⟩ := hi
      refine .inr (.inr ⟨{ id := s.injected.length, route := [(b, d)], frame := f' }, by simp, rfl, ⟨rfl, fun _ _ => rfl⟩,
        by simp, ((qb, qd) :: way).dropLast, ?_⟩)
      rw [List.getLast?_eq_some_getLast (by simp), Option.some.injEq] at hp
      rw [← hp]
      exact (List.dropLast_append_getLast (by simp)).symm
  | @handle s t pre post g b d rest time data r t' he h1 h2 h3 h4 h5 h6 h7 h8 h9 h10 ih =>
    rcases ih hosts hi with ⟨g', h11, h12⟩ | ⟨g', h11, h12⟩ | ⟨g', h11, h12, h13, h14, x, h15⟩
    · exact .inl ⟨g', by simp [St.after, h11], h12⟩
    · exact .inr (.inl ⟨g', by simp [St.after, h11], h12⟩)
    · have hcase : g' = g ∨ g' ∈ pre ++ post := by
        rw [h1] at h11
        simp only [List.mem_append, List.mem_cons] at h11 ⊢
        tauto
      rcases hcase with rfl | h16
      · -- the frame itself is handled
        have hin := inert w he fun e h => (hosts e h).1
        have hpl := placed w he (fun e h => (hosts e h).2) devs
        have hdst : BridgeSpec.dst (received g' data time d) = dst f := by
          rw [received_dst time d h5 h6]
          exact addr_congr fun y hy => h13.2 _ (by omega)
        have hf60 : 60 ≤ f.length := by
          have : ∀ {s : St} {t : Nat → BridgeSpec.State}, Exec net s t → ∀ e ∈ s.injected, 60 ≤ e.2.length := by
            intro s t h
            induction h with
            | start s h => rw [h.injected]; simp
            | inject b d f _ _ _ _ h60 ih =>
              intro e he
              rcases List.mem_append.1 he with he | he
              · exact ih e he
              · rw [List.mem_singleton.1 he]; exact h60
            | handle => assumption
          exact this he (p, f) (List.mem_of_getElem? hi)
        rw [h2] at h15
        rw [h15] at hw
        obtain ⟨o', z, h17, h18, h19, h20⟩ := route_back w x qb qd qo b d rest hw (by rw [← h15]; rfl) hne
        have ho' : o' < net.devices b := by
          rcases h20 with ⟨_, rfl, rfl⟩ | ⟨_, e, _, h21⟩
          · exact hex
          · exact (w.exist _ _ _ h21).2
        -- the copy on device `o'`
        have hcopy : due (s.bridge b) time = true ∨ (r.2.1 = data ∧ sent d r.2.2 o' = some g'.frame.length) := by
          have hmax : (received g' data time d).length = g'.frame.length := by
            show max _ _ = _
            have := h13.1
            omega
          have hdir : ∀ e, t'.port (dst f) = some e → e = o' := by
            intro e hport
            rcases hq with hq | hq
            · exfalso
              rcases effect_port h9 hport with h | ⟨_, _, h⟩
              · exact (show ∀ (hc : (t b).port (dst f) = some e), False from fun hc => by
                  have := groups_unlearned he b h3 (dst f) (hgroup hq)
                  rw [this] at hc; cases hc) h
              · exact h (hgroup hq)
            · rcases effect_port h9 hport with h | ⟨h, hs, hg⟩
              · obtain ⟨r', h21, h22⟩ := hpl.port b h3 _ _ _ h hq
                exact (route_unique w lf _ _ _ _ _ _ h21 h18 h22 h19).1
              · -- the frame comes from where its destination is
                rw [received_src time d h5 h6] at hs
                rcases hpl.wire g' h11 with h23 | h23
                · exact absurd (hs ▸ h23) hg
                · have h24 := h23 _ (by rw [hs]; exact hq)
                  have tr := ((traced w he).wire g' h11).1
                  rw [h2] at h24 tr
                  have h : e = d := h
                  subst h
                  exact (route_unique w lf _ _ _ _ _ _ tr h18 h24 h19).1
          have hstp : BridgeSpec.dst (received g' data time d) ≠ BridgeSpec.stpAddr := by
            rw [hdst]; exact (hosts (p, f) (List.mem_of_getElem? hi)).1
          generalize hout' : (fun o => sent d r.2.2 o) = out at h9
          have hout'' : sent d r.2.2 o' = out o' := by rw [← hout']
          generalize hm : r.2.1 = m at h9
          rw [hout'']
          cases h9 with
          | toOne _ e _ h21 h22 h23 =>
            rw [hdst] at h21
            have := hdir e h21
            subst this
            right
            refine ⟨rfl, ?_⟩
            rw [h23, if_pos rfl, hmax]
          | toNone _ _ h21 =>
            rw [hdst] at h21
            exact absurd (hdir _ h21).symm h17
          | toAll _ _ h21 =>
            right
            refine ⟨rfl, ?_⟩
            rw [h21, if_pos, hmax]
            refine ⟨ho', h17, ?_⟩
            rw [hin.blocked b h3, List.getElem?_replicate, if_pos ho']
          | periodic _ _ h21 =>
            left
            rw [h10]
            exact decide_eq_true h21
          | received _ _ _ _ h21 => exact absurd h21 hstp
        rcases hcopy with hdue | ⟨hm, hsent⟩
        · exact .inl ⟨(g', due (s.bridge b) time), by simp [St.after], h12, hdue⟩
        · have hc : (o', g'.frame.length) ∈ copies (net.devices b) d r.2.2 := mem_copies.2 ⟨ho', hsent⟩
          have hsame : Same ⟨r.2.1, g'.frame.length⟩ f := by
            refine ⟨h13.1, fun y hy => ?_⟩
            show r.2.1 y = f.data y
            rw [hm, h6 y hy]
            exact h13.2 y hy
          rcases h20 with ⟨rfl, rfl, rfl⟩ | ⟨x0, e, rfl, h21⟩
          · refine .inr (.inl ⟨{ id := g'.id, route := (b, o') :: g'.route, frame := ⟨r.2.1, g'.frame.length⟩ }, ?_, h12, rfl, hsame⟩)
            simp only [St.after, List.mem_append]
            exact .inr (mem_leaving.2 ⟨o', _, hc, hout, rfl⟩)
          · refine .inr (.inr ⟨{ id := g'.id, route := e :: g'.route, frame := ⟨r.2.1, g'.frame.length⟩ }, ?_, h12, hsame, by simp,
              x0, ?_⟩)
            · simp only [St.after, List.mem_append]
              exact .inr (mem_onward.2 ⟨o', _, e, hc, h21, rfl⟩)
            · rw [h15, h2]; simp
      · refine .inr (.inr ⟨g', ?_, h12, h13, h14, x, h15⟩)
        simp only [St.after, List.mem_append] at h16 ⊢
        tauto

theorem effect_update {c : BridgeSpec.Config} {mac : Nat → List UInt8} {t t' : BridgeSpec.State} {p : Packet} {m : Mem}
    {out : Nat → Option Nat} (h : Effect c mac t p t' m out) :
    ((t.lastUpdate + c.updateTime) % 2 ^ 64 < p.time ∧ t'.lastUpdate = p.time) ∨
    (¬ (t.lastUpdate + c.updateTime) % 2 ^ 64 < p.time ∧ t'.lastUpdate = t.lastUpdate) := by
  have hl : (BridgeSpec.learn c t p).lastUpdate = t.lastUpdate := by unfold BridgeSpec.learn; split <;> rfl
  cases h with
  | toOne _ _ h1 => exact .inr ⟨Nat.not_lt.2 h1.1, hl⟩
  | toNone _ h1 => exact .inr ⟨Nat.not_lt.2 h1.1, hl⟩
  | toAll _ h1 => exact .inr ⟨Nat.not_lt.2 h1.1, hl⟩
  | periodic _ _ h1 => exact .inl ⟨h1, rfl⟩
  | received _ _ _ h1 => exact .inr ⟨Nat.not_lt.2 h1, rfl⟩

theorem handled_bridge {s : St} {t : Nat → BridgeSpec.State} (he : Exec net s t) : ∀ g ∈ s.handled,
    ∃ b d r, g.1.route = (b, d) :: r ∧ b < net.bridges := by
  induction he with
  | start s h => rw [h.handled]; simp
  | inject _ _ _ _ _ _ _ _ ih => exact ih
  | handle pre post f b d rest time data r t' he h1 h2 h3 h4 h5 h6 h7 h8 h9 h10 ih =>
    intro g hg
    simp only [St.after, List.mem_append, List.mem_singleton] at hg
    rcases hg with hg | rfl
    · exact ih g hg
    · exact ⟨b, d, rest, h2, h3⟩

/-- Bridge `b` handled the frame and made a message of it. -/
def madeAt (b : Nat) (g : Flying × Bool) : Bool := g.2 && decide (g.1.route.head?.map Prod.fst = some b)

theorem messages {s : St} {t : Nat → BridgeSpec.State} (h : Exec net s t) (b : Nat)
    (hw : s.clock b + (net.config b).updateTime < 2 ^ 64) :
    s.handled.countP (madeAt b) * ((net.config b).updateTime + 1) ≤ (t b).lastUpdate ∧ (t b).lastUpdate ≤ s.clock b := by
  induction h with
  | start s h => rw [h.handled, h.clock]; exact ⟨by simp, by simp [bridgeStart]⟩
  | inject _ _ _ _ _ _ _ _ ih => exact ih hw
  | @handle s t pre post f b' d rest time data r t' he h1 h2 h3 h4 h5 h6 h7 h8 h9 h10 ih =>
    simp only [St.after] at hw ⊢
    rw [List.countP_append]
    by_cases hb : b = b'
    · subst hb
      simp only [if_true] at hw ⊢
      obtain ⟨i1, i2⟩ := ih (by omega)
      have hmod : ((t b).lastUpdate + (net.config b).updateTime) % 2 ^ 64 = (t b).lastUpdate + (net.config b).updateTime :=
        Nat.mod_eq_of_lt (by omega)
      have hu := effect_update h9
      simp only [cfg, received] at hu
      rw [hmod] at h10 hu
      rcases hu with ⟨u1, u2⟩ | ⟨u1, u2⟩
      · rw [h10, u2]
        have : List.countP (madeAt b) [(f, decide ((t b).lastUpdate + (net.config b).updateTime < time))] = 1 := by
          simp [madeAt, h2, u1]
        rw [this, Nat.add_mul]
        omega
      · rw [h10, u2]
        have : List.countP (madeAt b) [(f, decide ((t b).lastUpdate + (net.config b).updateTime < time))] = 0 := by
          simp only [decide_eq_false u1]
          simp [madeAt]
        rw [this]
        exact ⟨by simpa using i1, by omega⟩
    · simp only [if_neg hb] at hw ⊢
      have : List.countP (madeAt b) [(f, due (s.bridge b') time)] = 0 := by
        have hb' : ¬ b' = b := fun h => hb h.symm
        simp [madeAt, h2, hb']
      rw [this]
      exact ih hw

theorem length_le_sum {α : Type} (k : α → Option Nat) (n : Nat) : ∀ l : List α, (∀ g ∈ l, ∃ b < n, k g = some b) →
    l.length ≤ ((List.range n).map fun b => l.countP fun g => decide (k g = some b)).sum := by
  intro l
  induction l with
  | nil => simp
  | cons g l ih =>
    intro h
    obtain ⟨b, hb, hk⟩ := h g (by simp)
    have ih := ih fun x hx => h x (by simp [hx])
    have e : ((List.range n).map fun b => (g :: l).countP fun g => decide (k g = some b)) =
        (List.range n).map fun b => (l.countP fun g => decide (k g = some b)) + if k g = some b then 1 else 0 := by
      apply List.map_congr_left
      intro x _
      rw [List.countP_cons]
      simp
    rw [e, List.sum_map_add, List.length_cons]
    have : 1 ≤ ((List.range n).map fun b => if k g = some b then 1 else 0).sum := by
      refine List.single_le_sum (by simp) 1 (List.mem_map.2 ⟨b, List.mem_range.2 hb, by rw [if_pos hk]⟩)
    omega

theorem start_exists (w : Wired net) : ∃ s, Start net s := by
  have h : ∀ b, 2 ≤ net.devices b → ∃ s, Nf.Bridge.init (net.devices b) (net.config b).bid (net.config b).expiration
      (net.config b).capacity (net.config b).updateTime = some s := by
    intro b hb
    obtain ⟨tb, h3, _, _⟩ := Nf.inv_alloc 0 (net.config b).capacity (net.config b).expiration
    simp only [Nf.Bridge.init, h3, if_neg (show ¬ net.devices b < 2 by omega), Option.bind_eq_bind, Option.bind_some]
    exact ⟨_, rfl⟩
  obtain ⟨tb, h3, _, _⟩ := Nf.inv_alloc 0 0 0
  let s0 : Nf.Bridge.State := { stp := Nf.Bridge.stpInit 0 0 0, table := tb, devices := [] }
  refine ⟨{ bridge := fun b => (Nf.Bridge.init (net.devices b) (net.config b).bid (net.config b).expiration
      (net.config b).capacity (net.config b).updateTime).getD s0
            clock := fun _ => 0, wire := [], injected := [], handled := [], left := [] }, ?_, fun _ => rfl, rfl, rfl, rfl, rfl⟩
  intro b hb
  obtain ⟨s, hs⟩ := h b (w.two b hb)
  simp only [hs, Option.getD_some]

end Networked

end Verif.Props
