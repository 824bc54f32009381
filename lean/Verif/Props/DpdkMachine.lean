/- Property C84: the whole program on DPDK, with its network function. -/
import Verif.Nf.DpdkMachine
import Verif.Props.Dpdk
import Verif.Props.Machine

set_option autoImplicit false

namespace Verif.Props
open Verif.Nf (Packet Flow Out)
open Verif.PacketSpec (isTcpUdp isIpv4 flow reverse)
open Verif.IndexPoolSpec (timeMax)
open LowSpec (Placed)
open MachineSpec (Sensible from_)

namespace DpdkMachineSpec
open Verif.Nf.DpdkMachine (M Buf)

/-- Whether the requests for a packet ask for a device. -/
def Asks (p : Packet) (outs : List Out) (d : Nat) : Prop :=
  match outs with
  | [.transmit _ e _] => d = e
  | [.flood _ _] => d ≠ p.device
  | [.floodExcept _ dis _] => d ≠ p.device ∧ dis[d]? = some false
  | _ => False

/-- The bytes that leave device `d`: those of the packet, with the addresses of the device and of its endpoint if asked. -/
def Addressed (addrs : Nat → List UInt8) (d : Nat) (update : Bool) (q : Packet) (w : Mem) : Prop :=
  (update = false → w = q.data) ∧ (∀ x, x ≥ 12 → w x = q.data x) ∧
  (update = true → w 0 = UInt8.ofNat d ∧ (∀ x, 1 ≤ x → x < 6 → w x = 0) ∧ ∀ x < 6, w (6 + x) = ((addrs d)[x]?).getD 0)

/-- What leaves device `d` for a packet `p` whose requests ask for it. The length is that of the packet received, also if the
network function has set another one. -/
def Goes (addrs : Nat → List UInt8) (p : Packet) (outs : List Out) (d : Nat) (w : Buf) : Prop :=
  w.2 = p.length ∧
  match outs with
  | [.transmit q _ u] => Addressed addrs d u q w.1
  | [.flood q u] => Addressed addrs d u q w.1
  | [.floodExcept q _ u] => Addressed addrs d u q w.1
  | _ => False

/-- The packets for which device `d` is asked for, with their requests. -/
noncomputable def asking (d : Nat) (ps : List Packet) (outs : List (List Out)) : List (Packet × List Out) :=
  open Classical in (ps.zip outs).filter fun x => Asks x.1 x.2 d

/-- What the machine has done is what the network function asked for on the packets `ps`: those of each device are the ones
received there; and each device has sent, in order, what was asked of it but for what its card did not take. -/
def Done {S : Type} (addrs : Nat → List UInt8) (n : Nat) (full : Bool) (m : M S) (ps : List Packet) (outs : List (List Out)) : Prop :=
  (∀ i < n, (from_ i ps).map (fun p => (p.data, p.length)) = m.received i) ∧
  ∀ d < n, ∃ taken, taken.Sublist (asking d ps outs) ∧ (full = true → taken = asking d ps outs) ∧
    List.Forall₂ (fun x w => Goes addrs x.1 x.2 d w) taken (m.st.sent d)

end DpdkMachineSpec
open DpdkMachineSpec

namespace DpdkMachineNf
open Verif.Nf.DpdkMachine Verif.Dpdk DpdkSpec

/-! ### Network functions that are known only on their runs -/

section guard
variable {σ D : Type}

/-- At most one call, that follows tx.h. -/
def Once (n : Nat) (cs : List Call) : Prop := cs = [] ∨ ∃ k, cs = [k] ∧ Legal n k

open Classical in
/-- The program that ignores what does not follow tx.h. -/
noncomputable def guard (c : Config σ D) : Config σ D :=
  { c with handler := fun f x time input =>
      let r := c.handler f x time input
      if Once c.devices r.2.2 then r else (r.1, r.2.1, []) }

theorem guard_eq (c : Config σ D) {f : σ} {x : D} {time input : Nat} (h : Once c.devices (c.handler f x time input).2.2) :
    (guard c).handler f x time input = c.handler f x time input := by
  simp only [guard]; rw [if_pos h]

theorem guard_once (c : Config σ D) : AtMostOnce (guard c) := by
  intro f x time input _
  by_cases h : Once c.devices (c.handler f x time input).2.2
  · rw [guard_eq c h]; exact h
  · left; simp only [guard]; rw [if_neg h]

theorem enqueue_nf {c : Config σ D} {s t : St σ D} {m d : Nat} {u : Bool} (h : enqueue c s m d u = some t) : t.nf = s.nf := by
  unfold enqueue at h
  split at h
  · split at h
    · cases h; rfl
    · cases h
  · cases h

theorem floodLoop_nf {c : Config σ D} {m input : Nat} {u : Bool} {dis : Option (List Bool)} : ∀ (k n : Nat) (s t : St σ D),
    floodLoop c m input u dis k n s = some t → t.nf = s.nf := by
  intro k
  induction k with
  | zero => intro n s t h; cases h; rfl
  | succ k ih =>
    intro n s t h
    simp only [floodLoop, Option.bind_eq_bind, Option.bind_eq_some_iff] at h
    obtain ⟨off, _, s1, h1, h⟩ := h
    rw [ih _ _ _ h]
    split at h1
    · cases h1; rfl
    · exact enqueue_nf h1

theorem calls_nf {c : Config σ D} {m input : Nat} : ∀ (cs : List Call) (s t : St σ D), calls c m input cs s = some t → t.nf = s.nf := by
  intro cs
  induction cs with
  | nil => intro s t h; cases h; rfl
  | cons k cs ih =>
    intro s t h
    simp only [calls, Option.bind_eq_bind, Option.bind_eq_some_iff] at h
    obtain ⟨s1, h1, h⟩ := h
    rw [ih _ _ h]
    cases k with
    | transmit d u => exact enqueue_nf h1
    | flood u => exact floodLoop_nf _ _ _ _ h1
    | floodExcept l u => exact floodLoop_nf _ _ _ _ h1

theorem floodLoop_guard (c : Config σ D) {m input : Nat} {u : Bool} {dis : Option (List Bool)} : ∀ (k n : Nat) (s : St σ D),
    floodLoop (guard c) m input u dis k n s = floodLoop c m input u dis k n s := by
  intro k
  induction k with
  | zero => intro n s; rfl
  | succ k ih =>
    intro n s
    simp only [floodLoop, ih]
    rfl

theorem calls_guard (c : Config σ D) {m input : Nat} : ∀ (cs : List Call) (s : St σ D),
    calls (guard c) m input cs s = calls c m input cs s := by
  intro cs
  induction cs with
  | nil => intro s; rfl
  | cons k cs ih =>
    intro s
    simp only [calls, ih]
    congr 1
    cases k with
    | transmit d u => rfl
    | flood u => exact floodLoop_guard c _ _ _
    | floodExcept l u => exact floodLoop_guard c _ _ _

/-- If the network function follows tx.h in all states that it can reach, ignoring what does not follow it is no change. -/
theorem handleAll_guard (c : Config σ D) {G : σ → Nat → Prop} {input last : Nat}
    (hG : ∀ f t x time, G f t → t ≤ time → time ≤ last → Once c.devices (c.handler f x time input).2.2 ∧
      G (c.handler f x time input).1 time) :
    ∀ (rx : List (Rx D)) (s : St σ D) (t : Nat), G s.nf t → (t :: rx.map Rx.time ++ [last]).Pairwise (· ≤ ·) →
      handleAll (guard c) input rx s = handleAll c input rx s := by
  intro rx
  induction rx with
  | nil => intro s t _ _; rfl
  | cons r rs ih =>
    intro s t hg hp
    simp only [List.map_cons, List.cons_append, List.pairwise_cons, List.mem_cons, List.mem_append, List.not_mem_nil,
      or_false] at hp
    obtain ⟨h1, h2, h3⟩ := hp
    obtain ⟨h4, h5⟩ := hG s.nf t (s.buf r.m) r.time hg (h1 _ (.inl rfl)) (h2 _ (.inr rfl))
    have e : handleOne (guard c) input r.m r.time s = handleOne c input r.m r.time s := by
      unfold handleOne
      simp only [guard_eq c h4, calls_guard]
    simp only [handleAll, e, Option.bind_eq_bind]
    cases ho : handleOne c input r.m r.time s with
    | none => rfl
    | some s1 =>
      simp only [Option.bind_some]
      refine ih s1 r.time ?_ ?_
      · have : s1.nf = (c.handler s.nf (s.buf r.m) r.time input).1 := calls_nf _ _ _ ho
        rw [this]; exact h5
      · simp only [List.cons_append, List.pairwise_cons, List.mem_append, List.mem_cons, List.not_mem_nil, or_false]
        exact ⟨h2, h3⟩

theorem iteration_guard (c : Config σ D) {G : σ → Nat → Prop} {input last : Nat}
    (hG : ∀ f t x time, G f t → t ≤ time → time ≤ last → Once c.devices (c.handler f x time input).2.2 ∧
      G (c.handler f x time input).1 time)
    {rx : List (Rx D)} {s : St σ D} {t : Nat} (hs : G s.nf t) (hp : (t :: rx.map Rx.time ++ [last]).Pairwise (· ≤ ·))
    (accept : Nat → Nat) : iteration (guard c) input rx accept s = iteration c input rx accept s := by
  unfold iteration
  have := handleAll_guard c hG rx { s with buf := fill s.buf rx, pool := s.pool.filter fun m => !(rx.map Rx.m).contains m } t hs hp
  simp only [this]
  rfl

end guard

/-! ### Batches and runs -/

variable {S : Type} {addrs : Nat → List UInt8} {n batch : Nat} {handle : S → Packet → Option (S × List Out)}

/-- The packet of a receive. -/
def pktOf (input : Nat) (r : Rx Buf) : Packet := packetOf r.data r.time input

theorem mono_append : ∀ (ps qs : List Packet) (t0 t : Nat), MonoFrom t0 ps → (∀ p ∈ ps, p.time ≤ t) → t0 ≤ t → MonoFrom t qs →
    MonoFrom t0 (ps ++ qs) := by
  intro ps
  induction ps with
  | nil =>
    intro qs t0 t _ _ h hq
    cases qs with
    | nil => trivial
    | cons q qs => exact ⟨Nat.le_trans h hq.1, hq.2⟩
  | cons p ps ih =>
    intro qs t0 t h hp _ hq
    exact ⟨h.1, ih qs p.time t h.2 (fun q hq => hp q (by simp [hq])) (hp p (by simp)) hq⟩

theorem mono_rx (input : Nat) : ∀ (rx : List (Rx Buf)) (t last : Nat), (t :: rx.map Rx.time ++ [last]).Pairwise (· ≤ ·) →
    MonoFrom t (rx.map (pktOf input)) ∧ ∀ p ∈ rx.map (pktOf input), p.time ≤ last := by
  intro rx
  induction rx with
  | nil => intro t last _; exact ⟨trivial, by simp⟩
  | cons r rs ih =>
    intro t last hp
    simp only [List.map_cons, List.cons_append, List.pairwise_cons, List.mem_cons, List.mem_append, List.not_mem_nil,
      or_false] at hp
    obtain ⟨h1, h2, h3⟩ := hp
    obtain ⟨a, b⟩ := ih r.time last (by
      simp only [List.cons_append, List.pairwise_cons, List.mem_append, List.mem_cons, List.not_mem_nil, or_false]
      exact ⟨h2, h3⟩)
    refine ⟨⟨h1 _ (.inl rfl), a⟩, ?_⟩
    intro p hp
    rw [List.map_cons, List.mem_cons] at hp
    rcases hp with rfl | hp
    · exact h2 _ (.inr rfl)
    · exact b p hp

/-- The states that the network function can reach. -/
def Reached (n : Nat) (handle : S → Packet → Option (S × List Out)) (s0 : S) (f : Option S) (t : Nat) : Prop :=
  ∃ ps s outs, MonoFrom 0 ps ∧ (∀ p ∈ ps, p.time ≤ t ∧ p.time < timeMax ∧ p.device < n) ∧
    Nf.Low.run handle s0 ps = some (s, outs) ∧ f = some s

theorem sensible_once {p : Packet} {outs : List Out} (h : Sensible n p outs) : Once n (outs.map callOf) := by
  match outs, h with
  | [], _ => exact .inl rfl
  | [.transmit q e u], h => exact .inr ⟨_, rfl, h.2.1⟩
  | [.flood q u], _ => exact .inr ⟨_, rfl, trivial⟩
  | [.floodExcept q dis u], h => exact .inr ⟨_, rfl, h.2⟩

theorem handler_some {s s' : S} {b : Buf} {time input : Nat} {outs : List Out}
    (h : handle s (packetOf b time input) = some (s', outs)) :
    handler handle (some s) b time input = (some s', (((outs.getLast?).map dataOf).getD b.1, b.2), outs.map callOf) := by
  unfold handler
  simp only [h]

theorem run_append_eq {xs ys : List Packet} {s s' t : S} {os o1 : List (List Out)}
    (h : Nf.Low.run handle s (xs ++ ys) = some (s', os)) (hx : Nf.Low.run handle s xs = some (t, o1)) :
    ∃ o2, Nf.Low.run handle t ys = some (s', o2) ∧ os = o1 ++ o2 ∧ o1.length = xs.length := by
  obtain ⟨t', o1', o2, h1, h2, h3, h4⟩ := MachineNf.run_append xs ys s s' os h
  rw [hx] at h1
  cases h1
  exact ⟨o2, h2, h3, h4⟩


/-- What one packet leads to. -/
theorem item_goes (h2 : n ≤ 2) {input : Nat} (hin : input < n) {b : Buf} {time : Nat} {outs : List Out}
    (ho : Sensible n (packetOf b time input) outs) :
    let c := config n batch addrs handle
    ∀ d < n, (d ∈ wantedOn c input (outs.map callOf) ↔ Asks (packetOf b time input) outs d) ∧
      (Asks (packetOf b time input) outs d → Goes addrs (packetOf b time input) outs d
        (finalData c input (((outs.getLast?).map dataOf).getD b.1, b.2) (outs.map callOf))) := by
  intro c d hd
  have hone : ∀ k, Legal n k → d ∈ targets n input k → targets n input k = [d] := by
    intro k hk hm
    rcases dpdk_targets n input h2 hin k hk with h | ⟨e, _, h⟩
    · rw [h] at hm; cases hm
    · rw [h, List.mem_singleton] at hm; rw [h, hm]
  have addressed : ∀ (u : Bool) (q : Packet) (len : Nat),
      Addressed addrs d u q (if u = true then [d].foldl (fun y d => c.update d y) (q.data, len) else (q.data, len)).1 := by
    intro u q len
    cases u with
    | false => exact ⟨fun _ => rfl, fun _ _ => rfl, fun h => by cases h⟩
    | true =>
      refine ⟨fun h => (by cases h), fun x hx => ?_, fun _ => ⟨?_, fun x h1 hx => ?_, fun x hx => ?_⟩⟩
      · show Nf.Runtime.stMac (Nf.Runtime.stMac q.data 6 (addrs d)) 0 (endpointAddr d) x = _
        simp only [Nf.Runtime.stMac]
        rw [if_neg (by omega), if_neg (by omega)]
      · rfl
      · show Nf.Runtime.stMac (Nf.Runtime.stMac q.data 6 (addrs d)) 0 (endpointAddr d) x = _
        simp only [Nf.Runtime.stMac]
        rw [if_pos (by omega)]
        obtain rfl | rfl | rfl | rfl | rfl : x = 1 ∨ x = 2 ∨ x = 3 ∨ x = 4 ∨ x = 5 := by omega
        all_goals rfl
      · show Nf.Runtime.stMac (Nf.Runtime.stMac q.data 6 (addrs d)) 0 (endpointAddr d) (6 + x) = _
        simp only [Nf.Runtime.stMac]
        rw [if_neg (by omega), if_pos (by omega)]
        simp
  have len : ∀ (u : Bool) (q : Mem), (if u = true then [d].foldl (fun y d => c.update d y) (q, b.2) else (q, b.2)).2 = b.2 := by
    intro u q; cases u <;> rfl
  match outs, ho with
  | [], _ =>
    refine ⟨?_, fun h => h.elim⟩
    simp [wantedOn, Asks]
  | [.transmit q e u], ⟨_, he, _⟩ =>
    refine ⟨by simp [wantedOn, callOf, targets, Asks], fun h => ?_⟩
    have h : d = e := h
    subst h
    exact ⟨len u q.data, addressed u q b.2⟩
  | [.flood q u], _ =>
    have hm : d ∈ targets n input (.flood u) ↔ d ≠ input := by simp [targets, hd]
    refine ⟨?_, fun h => ?_⟩
    · show d ∈ [callOf (.flood q u)].flatMap (targets n input) ↔ _
      rw [List.flatMap_singleton]
      exact hm
    · have ht := hone (.flood u) trivial (hm.2 h)
      show Goes addrs _ _ d (if u = true then (targets n input (.flood u)).foldl (fun y d => c.update d y) (q.data, b.2) else (q.data, b.2))
      rw [ht]
      exact ⟨len u q.data, addressed u q b.2⟩
  | [.floodExcept q dis u], ⟨_, hl⟩ =>
    have hm : d ∈ targets n input (.floodExcept dis u) ↔ d ≠ input ∧ dis[d]? = some false := by simp [targets, hd]
    refine ⟨?_, fun h => ?_⟩
    · show d ∈ [callOf (.floodExcept q dis u)].flatMap (targets n input) ↔ _
      rw [List.flatMap_singleton]
      exact hm
    · have ht := hone (.floodExcept dis u) hl (hm.2 h)
      show Goes addrs _ _ d (if u = true then (targets n input (.floodExcept dis u)).foldl (fun y d => c.update d y) (q.data, b.2) else (q.data, b.2))
      rw [ht]
      exact ⟨len u q.data, addressed u q b.2⟩

theorem finalData_guard {σ D : Type} (c : Config σ D) (input : Nat) : ∀ (cs : List Call) (x : D),
    finalData (guard c) input x cs = finalData c input x cs := by
  intro cs
  induction cs with
  | nil => intro x; rfl
  | cons k cs ih => intro x; exact ih _

/-- A batch is a run of the network function. -/
theorem batch_run (h2 : n ≤ 2) {input : Nat} (hin : input < n) : ∀ (rx : List (Rx Buf)) (s s' : S) (os : List (List Out)),
    Nf.Low.run handle s (rx.map (pktOf input)) = some (s', os) → List.Forall₂ (Sensible n) (rx.map (pktOf input)) os →
    let b := batchOf (guard (config n batch addrs handle)) input (some s) rx
    b.1 = some s' ∧ List.Forall₂ (fun (x : Packet × List Out) (i : Buf × List Nat) => ∀ d < n,
      (d ∈ i.2 ↔ Asks x.1 x.2 d) ∧ (Asks x.1 x.2 d → Goes addrs x.1 x.2 d i.1)) ((rx.map (pktOf input)).zip os) b.2 := by
  intro rx
  induction rx with
  | nil => intro s s' os h _; cases h; exact ⟨rfl, .nil⟩
  | cons r rs ih =>
    intro s s' os h hf
    simp only [List.map_cons, Nf.Low.run, Option.bind_eq_bind, Option.bind_eq_some_iff] at h
    obtain ⟨⟨s1, o⟩, h3, ⟨s2, os'⟩, h4, h⟩ := h
    cases h
    rw [List.map_cons, List.forall₂_cons] at hf
    have hh : (config n batch addrs handle).handler (some s) r.data r.time input =
        (some s1, (((o.getLast?).map dataOf).getD r.data.1, r.data.2), o.map callOf) := handler_some h3
    have hg : (guard (config n batch addrs handle)).handler (some s) r.data r.time input =
        (some s1, (((o.getLast?).map dataOf).getD r.data.1, r.data.2), o.map callOf) := by
      rw [guard_eq _ (by rw [hh]; exact sensible_once hf.1), hh]
    obtain ⟨i1, i2⟩ := ih s1 s2 os' h4 hf.2
    refine ⟨?_, ?_⟩
    · simp only [batchOf, hg]; exact i1
    · simp only [batchOf, hg, List.map_cons, List.zip_cons_cons]
      rw [finalData_guard]
      exact .cons (item_goes (batch := batch) (addrs := addrs) (handle := handle) h2 hin hf.1) i2

theorem forall₂_filter₂ {A B : Type} {R : A → B → Prop} {p : A → Bool} {q : B → Bool} {l : List A} {l' : List B}
    (h : List.Forall₂ (fun a b => (q b = true ↔ p a = true) ∧ (p a = true → R a b)) l l') :
    List.Forall₂ R (l.filter p) (l'.filter q) := by
  induction h with
  | nil => exact .nil
  | @cons a b l l' hr _ ih =>
    by_cases ha : p a = true
    · rw [List.filter_cons_of_pos ha, List.filter_cons_of_pos (hr.1.2 ha)]
      exact .cons (hr.2 ha) ih
    · rw [List.filter_cons_of_neg ha, List.filter_cons_of_neg (fun hb => ha (hr.1.1 hb))]
      exact ih

theorem forall₂_take {A B : Type} {R : A → B → Prop} {l : List A} {l' : List B} (h : List.Forall₂ R l l') (k : Nat) :
    List.Forall₂ R (l.take k) (l'.take k) := by
  induction h generalizing k with
  | nil => simp
  | cons hr _ ih =>
    cases k with
    | zero => simp
    | succ k => simp only [List.take_succ_cons]; exact .cons hr (ih k)

theorem forall₂_map_right {A B C : Type} {R : A → C → Prop} {f : B → C} {l : List A} {l' : List B}
    (h : List.Forall₂ (fun a b => R a (f b)) l l') : List.Forall₂ R l (l'.map f) := by
  induction h with
  | nil => exact .nil
  | cons hr _ ih => exact .cons hr ih

theorem forall₂_append {A B : Type} {R : A → B → Prop} {l1 l2 : List A} {l1' l2' : List B} (h1 : List.Forall₂ R l1 l1')
    (h2 : List.Forall₂ R l2 l2') : List.Forall₂ R (l1 ++ l2) (l1' ++ l2') := by
  induction h1 with
  | nil => exact h2
  | cons hr _ ih => exact .cons hr ih

theorem forall₂_right {A B : Type} {R : A → B → Prop} : ∀ {a a' : List A} {b b' : List B}, b.length = a.length →
    List.Forall₂ R (a ++ a') (b ++ b') → List.Forall₂ R a' b' := by
  intro a
  induction a with
  | nil => intro a' b b' hl h; cases b with
    | nil => exact h
    | cons x b => simp at hl
  | cons x a ih =>
    intro a' b b' hl h
    cases b with
    | nil => simp at hl
    | cons y b =>
      rw [List.cons_append, List.cons_append, List.forall₂_cons] at h
      exact ih (by simpa using hl) h.2

theorem steps_now {c : Config (Option S) Buf} {full : Bool} {m m' : M S} (h : Step c full m m') : m.now ≤ m'.now := by
  cases h with
  | iterate t now input rx accept _ _ hp => 
    rw [List.cons_append, List.pairwise_cons] at hp
    exact hp.1 now (by simp)
  | complete => exact Nat.le_refl _

/-- What is known of the network function. -/
def Known (n : Nat) (handle : S → Packet → Option (S × List Out)) (s0 : S) : Prop :=
  ∀ ps, MonoFrom 0 ps → (∀ p ∈ ps, p.time < timeMax ∧ p.device < n) →
    ∃ s' outs, Nf.Low.run handle s0 ps = some (s', outs) ∧ List.Forall₂ (Sensible n) ps outs

theorem reached_step {s0 : S} (hk : Known n handle s0) {input last : Nat} (hin : input < n) (hlast : last < timeMax) :
    ∀ f t x time, Reached n handle s0 f t → t ≤ time → time ≤ last →
      Once n ((handler handle f x time input).2.2) ∧ Reached n handle s0 (handler handle f x time input).1 time := by
  rintro f t x time ⟨ps, s, outs, h1, h2, h3, rfl⟩ ht hl
  have hm : MonoFrom 0 (ps ++ [packetOf x time input]) :=
    mono_append ps _ 0 t h1 (fun p hp => (h2 p hp).1) (Nat.zero_le _) ⟨ht, trivial⟩
  have hd : ∀ p ∈ ps ++ [packetOf x time input], p.time < timeMax ∧ p.device < n := by
    intro p hp
    rw [List.mem_append, List.mem_singleton] at hp
    rcases hp with hp | rfl
    · exact (h2 p hp).2
    · exact ⟨Nat.lt_of_le_of_lt hl hlast, hin⟩
  obtain ⟨s', os, h4, h5⟩ := hk _ hm hd
  obtain ⟨o2, h6, rfl, h7⟩ := run_append_eq h4 h3
  have h8 := forall₂_right h7 h5
  simp only [Nf.Low.run, Option.bind_eq_bind, Option.bind_eq_some_iff] at h6
  obtain ⟨⟨s1, o⟩, h9, ⟨s2, os'⟩, h10, h11⟩ := h6
  cases h10
  cases h11
  rw [List.forall₂_cons] at h8
  rw [handler_some h9]
  refine ⟨sensible_once h8.1, ps ++ [packetOf x time input], s1, outs ++ [o], hm, ?_, ?_, rfl⟩
  · intro p hp
    refine ⟨?_, hd p hp⟩
    rw [List.mem_append, List.mem_singleton] at hp
    rcases hp with hp | rfl
    · exact Nat.le_trans (h2 p hp).1 ht
    · exact Nat.le_refl _
  · exact h4

/-- What holds between iterations. -/
structure Inv (addrs : Nat → List UInt8) (n : Nat) (handle : S → Packet → Option (S × List Out)) (s0 : S) (full : Bool) (m : M S)
    (ps : List Packet) (s : S) (outs : List (List Out)) : Prop where
  mono : MonoFrom 0 ps
  bound : ∀ p ∈ ps, p.time ≤ m.now ∧ p.device < n
  run : Nf.Low.run handle s0 ps = some (s, outs)
  nf : m.st.nf = some s
  empty : ∀ d, m.st.toTx d = []
  done : Done addrs n full m ps outs

theorem inv_iterate (h2 : n ≤ 2) {s0 : S} (hk : Known n handle s0) {full : Bool} {m : M S} {ps : List Packet} {s : S}
    {outs : List (List Out)} (inv : Inv addrs n handle s0 full m ps s outs) {now input : Nat} {rx : List (Rx Buf)}
    (accept : Nat → Nat) (hnow : now < timeMax) (hin : input < n) (hrx : Receivable (config n batch addrs handle) m.st rx)
    (hp : (m.now :: rx.map Rx.time ++ [now]).Pairwise (· ≤ ·)) (hfull : full = true → ∀ d, batch ≤ accept d) :
    ∃ t ps' s' outs', iteration (config n batch addrs handle) input rx accept m.st = some t ∧
      Inv addrs n handle s0 full { st := t, now := now, received := upd m.received input (m.received input ++ rx.map Rx.data) }
        ps' s' outs' := by
  have hmn : m.now ≤ now := by
    rw [List.cons_append, List.pairwise_cons] at hp
    exact hp.1 now (by simp)
  have hreach : Reached n handle s0 m.st.nf m.now :=
    ⟨ps, s, outs, inv.mono, fun p hp => ⟨(inv.bound p hp).1, by have := (inv.bound p hp).1; omega, (inv.bound p hp).2⟩, inv.run, inv.nf⟩
  have hguard := iteration_guard (config n batch addrs handle) (reached_step hk hin hnow) hreach hp accept
  obtain ⟨t, ht, t1, t2, t3, -⟩ := dpdk_iteration (guard (config n batch addrs handle)) h2 (guard_once _) input hin m.st inv.empty rx hrx accept
  rw [hguard] at ht
  obtain ⟨q1, q2⟩ := mono_rx input rx m.now now hp
  have hm : MonoFrom 0 (ps ++ rx.map (pktOf input)) :=
    mono_append ps _ 0 m.now inv.mono (fun p hp => (inv.bound p hp).1) (Nat.zero_le _) q1
  have hdev : ∀ p ∈ rx.map (pktOf input), p.device = input := by
    intro p hp
    obtain ⟨r, _, rfl⟩ := List.mem_map.1 hp
    rfl
  have hb : ∀ p ∈ ps ++ rx.map (pktOf input), p.time ≤ now ∧ p.device < n := by
    intro p hp
    rw [List.mem_append] at hp
    rcases hp with hp | hp
    · exact ⟨Nat.le_trans (inv.bound p hp).1 hmn, (inv.bound p hp).2⟩
    · exact ⟨q2 p hp, by rw [hdev p hp]; exact hin⟩
  obtain ⟨s', os, h4, h5⟩ := hk _ hm fun p hp => ⟨Nat.lt_of_le_of_lt (hb p hp).1 hnow, (hb p hp).2⟩
  obtain ⟨o2, h6, rfl, h7⟩ := run_append_eq h4 inv.run
  have h8 := forall₂_right h7 h5
  obtain ⟨b1, b2⟩ := batch_run (addrs := addrs) (batch := batch) h2 hin rx s s' o2 h6 h8
  rw [← inv.nf] at b1 b2
  refine ⟨t, ps ++ rx.map (pktOf input), s', outs ++ o2, ht, hm, hb, h4, t1.trans b1, t2, ?_, ?_⟩
  · intro i hi
    unfold from_
    rw [List.filter_append, List.map_append]
    have e := inv.done.1 i hi
    unfold from_ at e
    rw [e]
    by_cases hii : i = input
    · subst hii
      rw [List.filter_eq_self.2 (fun p hp => by simpa using hdev p hp), List.map_map]
      simp only [upd, if_true]
      rfl
    · rw [List.filter_eq_nil_iff.2 (fun p hp => by rw [hdev p hp]; simpa using fun h => hii h.symm)]
      simp only [upd, if_neg hii, List.map_nil, List.append_nil]
  · intro d hd
    obtain ⟨tk, k1, k2, k3⟩ := inv.done.2 d hd
    have e : asking d (ps ++ rx.map (pktOf input)) (outs ++ o2) = asking d ps outs ++ asking d (rx.map (pktOf input)) o2 := by
      unfold asking
      rw [List.zip_append h7.symm, List.filter_append]
    have hf : List.Forall₂ (fun (x : Packet × List Out) (i : Buf × List Nat) => Goes addrs x.1 x.2 d i.1) (asking d (rx.map (pktOf input)) o2)
        ((batchOf (guard (config n batch addrs handle)) input m.st.nf rx).2.filter fun o => d ∈ o.2) := by
      unfold asking
      apply forall₂_filter₂
      refine MachineNf.forall₂_imp b2 fun x _ i hi => ?_
      obtain ⟨u1, u2⟩ := hi d hd
      exact ⟨by simpa using u1, by simpa using u2⟩
    refine ⟨tk ++ (asking d (rx.map (pktOf input)) o2).take (accept d), ?_, fun h => ?_, ?_⟩
    · rw [e]; exact k1.append (List.take_sublist _ _)
    · rw [e, k2 h, List.take_of_length_le]
      refine Nat.le_trans ?_ (hfull h d)
      refine Nat.le_trans ?_ hrx.1
      unfold asking
      refine Nat.le_trans (List.length_filter_le _ _) ?_
      rw [List.length_zip, List.length_map]
      omega
    · show List.Forall₂ _ _ (t.sent d)
      rw [t3 d hd]
      refine forall₂_append k3 ?_
      rw [← List.map_take]
      exact forall₂_map_right (forall₂_take hf _)

theorem inv_steps (h2 : n ≤ 2) {s0 : S} (hk : Known n handle s0) {full : Bool} {t0 k : Nat} {buf : Nat → Buf} {m : M S}
    (hs : Steps (config n batch addrs handle) full (begin s0 t0 buf k) m) (ht : m.now < timeMax) :
    ∃ ps s outs, Inv addrs n handle s0 full m ps s outs := by
  induction hs with
  | refl =>
    refine ⟨[], s0, [], trivial, by simp, rfl, rfl, fun _ => rfl, ?_, ?_⟩
    · intro i _; rfl
    · intro d _
      refine ⟨[], List.nil_sublist _, fun _ => ?_, .nil⟩
      simp [asking]
  | step _ h ih =>
    have hn := steps_now h
    obtain ⟨ps, s, outs, inv⟩ := ih (by omega)
    cases h with
    | iterate t now input rx accept hin hrx hp hfull hit =>
      obtain ⟨t', ps', s', outs', h1, h2⟩ := inv_iterate h2 hk inv accept ht hin hrx hp hfull
      rw [hit] at h1
      cases h1
      exact ⟨ps', s', outs', h2⟩
    | complete l l' b hc => exact ⟨ps, s, outs, inv.mono, inv.bound, inv.run, inv.nf, inv.empty, inv.done⟩

/-! ### Buffers that are lost -/

theorem dpdk_step {c : Config (Option S) Buf} {full : Bool} {m m' : M S} (h : Nf.DpdkMachine.Step c full m m') :
    Dpdk.Step c m.st m'.st := by
  cases h with
  | iterate t now input rx accept hin hrx hp hfull hit => exact .iterate _ _ _ _ _ hin hrx hit
  | complete l l' b hc => exact .complete _ _ _ _ hc

theorem dpdk_steps {c : Config (Option S) Buf} {full : Bool} {m m' : M S} (h : Nf.DpdkMachine.Steps c full m m') :
    Dpdk.Steps c m.st m'.st := by
  induction h with
  | refl => exact .refl
  | step _ h ih => exact .step ih (dpdk_step h)

theorem steps_append {c : Config (Option S) Buf} {full : Bool} {m t u : M S} (h1 : Nf.DpdkMachine.Steps c full m t)
    (h2 : Nf.DpdkMachine.Steps c full t u) : Nf.DpdkMachine.Steps c full m u := by
  induction h2 with
  | refl => exact h1
  | step _ h ih => exact .step ih h

theorem dead {c : Config (Option S) Buf} {full : Bool} {m m' : M S} (hs : ∀ d, m.st.toTx d = []) (hp : m.st.pool = [])
    (hc : m.st.card = []) (h : Nf.DpdkMachine.Steps c full m m') : m'.received = m.received ∧ m'.st.sent = m.st.sent := by
  refine ⟨?_, (dpdk_stopped c _ _ hs hp hc (dpdk_steps h)).2.2.2.2⟩
  induction h with
  | refl => rfl
  | @step t u h1 h2 ih =>
    have hp' := (dpdk_stopped c _ _ hs hp hc (dpdk_steps h1)).2.1
    cases h2 with
    | iterate t' now input rx accept hin hrx hp hfull hit =>
      have : rx = [] := by
        cases rx with
        | nil => rfl
        | cons r rs => have := hrx.2.2 r (by simp); rw [hp'] at this; cases this
      subst this
      rw [← ih]
      funext i
      simp only [upd, List.map_nil, List.append_nil]
      split
      · rename_i h; rw [h]
      · rfl
    | complete l l' b hc => exact ih

theorem sendAll_empty {σ D : Type} (accept : Nat → Nat) : ∀ (k n : Nat) (s : St σ D), (∀ d, s.toTx d = []) →
    (∀ d, (sendAll accept k n s).toTx d = []) ∧ (sendAll accept k n s).pool = s.pool ∧ (sendAll accept k n s).card = s.card := by
  intro k
  induction k with
  | zero => intro n s h; exact ⟨h, rfl, rfl⟩
  | succ k ih =>
    intro n s h
    obtain ⟨a, b, e⟩ := ih (n + 1) (sendOne n (accept n) s) (fun d => by simp [sendOne, upd, h])
    exact ⟨a, b.trans (by simp [sendOne, h]), e.trans (by simp [sendOne, h])⟩

/-- Cards that have sent everything. -/
theorem completes {c : Config (Option S) Buf} {full : Bool} : ∀ (j : Nat) (m : M S), m.st.card.length = j →
    ∃ m', Nf.DpdkMachine.Steps c full m m' ∧ m'.now = m.now ∧ m'.received = m.received ∧ m'.st.toTx = m.st.toTx ∧ m'.st.card = [] ∧
      m'.st.pool.length = m.st.pool.length + j := by
  intro j
  induction j with
  | zero => intro m h; exact ⟨m, .refl, rfl, rfl, rfl, List.eq_nil_of_length_eq_zero h, rfl⟩
  | succ j ih =>
    intro m h
    obtain ⟨b, l, hl⟩ := List.exists_cons_of_length_eq_add_one h
    obtain ⟨m', a1, a2, a3, a4, a5, a6⟩ := ih { m with st := { m.st with card := l, pool := b :: m.st.pool } } (by
      rw [hl] at h; simpa using h)
    refine ⟨m', steps_append (.step .refl (.complete m [] l b hl)) a1, a2, a3, a4, a5, ?_⟩
    rw [a6]; simp; omega

/-- Dropped packets use up the buffers. -/
theorem drops {c : Config (Option S) Buf} {full : Bool} (hd : 0 < c.devices) (hb : 0 < c.batch) (x : Buf)
    (hdrop : ∀ g time, (c.handler g x time 0).2.2 = []) : ∀ (j : Nat) (m : M S), m.st.pool.length ≤ j → (∀ d, m.st.toTx d = []) →
    m.st.card = [] → ∃ (m' : M S) (i : Nat), Nf.DpdkMachine.Steps c full m m' ∧ i ≤ j ∧ m'.now = m.now ∧ (∀ d, m'.st.toTx d = []) ∧
      m'.st.pool = [] ∧ m'.st.card = [] ∧ m'.received = upd m.received 0 (m.received 0 ++ List.replicate i x) := by
  intro j
  induction j with
  | zero =>
    intro m h h1 h2
    refine ⟨m, 0, .refl, Nat.le_refl _, rfl, h1, List.eq_nil_of_length_eq_zero (by omega), h2, ?_⟩
    funext i; simp only [upd, List.replicate_zero, List.append_nil]; split
    · rename_i h; rw [h]
    · rfl
  | succ j ih =>
    intro m h h1 h2
    cases hpool : m.st.pool with
    | nil =>
      refine ⟨m, 0, .refl, Nat.zero_le _, rfl, h1, hpool, h2, ?_⟩
      funext i; simp only [upd, List.replicate_zero, List.append_nil]; split
      · rename_i h; rw [h]
      · rfl
    | cons b rest =>
      let s1 : St (Option S) Buf := { m.st with
        buf := upd (fill m.st.buf [⟨b, x, m.now⟩]) b (c.handler m.st.nf x m.now 0).2.1
        pool := m.st.pool.filter fun y => !([b] : List Nat).contains y
        nf := (c.handler m.st.nf x m.now 0).1 }
      obtain ⟨e1, e2, e3⟩ := sendAll_empty (fun _ => c.batch) c.devices 0 s1 h1
      have hlen : (m.st.pool.filter fun y => !([b] : List Nat).contains y).length ≤ j := by
        rw [hpool, List.filter_cons, if_neg (by simp)]
        rw [hpool] at h
        exact Nat.le_trans (List.length_filter_le _ _) (by simpa using h)
      let m1 : M S := ⟨sendAll (fun _ => c.batch) c.devices 0 s1, m.now, upd m.received 0 (m.received 0 ++ [x])⟩
      have hit : iteration c 0 [⟨b, x, m.now⟩] (fun _ => c.batch) m.st = some m1.st := by
        have hfill : fill m.st.buf [(⟨b, x, m.now⟩ : Rx Buf)] b = x := by simp [fill, upd]
        simp only [iteration, handleAll, handleOne, hfill, hdrop, calls, Option.bind_eq_bind, Option.bind_some, List.map_cons,
          List.map_nil]
        rfl
      have hst : Nf.DpdkMachine.Step c full m m1 :=
        .iterate m _ m.now 0 [⟨b, x, m.now⟩] (fun _ => c.batch) hd ⟨hb, by simp, by simp [hpool]⟩ (by simp) (fun _ _ => Nat.le_refl _) hit
      obtain ⟨m', i, a1, a2, a3, a4, a5, a6, a7⟩ := ih m1 (by show (sendAll _ _ _ s1).pool.length ≤ j; rw [e2]; exact hlen) e1
        (e3.trans h2)
      refine ⟨m', i + 1, steps_append (.step .refl hst) a1, by omega, a3, a4, a5, a6, ?_⟩
      rw [a7]
      funext y
      simp only [m1, upd]
      split
      · simp [List.replicate_succ]
      · rfl

end DpdkMachineNf
open DpdkMachineNf Verif.Nf.DpdkMachine
open MachineNf (firewall_sensible nat_sensible bridge_sensible maglev_sensible sensible_other run_append forall₂_imp lastUse_mem)

/-- Whatever is true of the packets and requests of a network function in every run on packets at times that do not decrease is
true, on the runtime for DPDK, of the sequence of packets received, and the requests are what is sent: for one or two devices,
all batch sizes, any number of buffers, and whatever the cards do. The network function makes at most one request for a
packet, for other devices that exist. -/
theorem C84_carries_over {S : Type} {addrs : Nat → List UInt8} {n batch : Nat} {handle : S → Packet → Option (S × List Out)} (h2 : n ≤ 2)
    {s0 : S} {Spec : List Packet → List (List Out) → Prop}
    (hspec : ∀ ps, MonoFrom 0 ps → (∀ p ∈ ps, p.time < timeMax ∧ p.device < n) →
      ∃ s' outs, Nf.Low.run handle s0 ps = some (s', outs) ∧ Spec ps outs ∧ List.Forall₂ (Sensible n) ps outs)
    {full : Bool} {t0 k : Nat} {buf : Nat → Buf} {m : M S}
    (hs : Steps (config n batch addrs handle) full (begin s0 t0 buf k) m) (ht : m.now < timeMax) :
    ∃ ps outs, MonoFrom 0 ps ∧ (∀ p ∈ ps, p.time < timeMax ∧ p.device < n) ∧ Spec ps outs ∧ (∃ s, m.st.nf = some s) ∧
      Done addrs n full m ps outs := by
  have hk : DpdkMachineNf.Known n handle s0 := fun ps h1 h2 => by
    obtain ⟨s', outs, a, _, b⟩ := hspec ps h1 h2
    exact ⟨s', outs, a, b⟩
  obtain ⟨ps, s, outs, inv⟩ := inv_steps h2 hk hs ht
  have hb : ∀ p ∈ ps, p.time < timeMax ∧ p.device < n :=
    fun p hp => ⟨Nat.lt_of_le_of_lt (inv.bound p hp).1 ht, (inv.bound p hp).2⟩
  obtain ⟨s', outs', a, b, _⟩ := hspec ps inv.mono hb
  rw [inv.run] at a
  cases a
  exact ⟨ps, outs, inv.mono, hb, b, ⟨s, inv.nf⟩, inv.done⟩

/-- No array is accessed out of bounds, and no assumption of the network function violated: whatever is received next, the iteration
succeeds, and the network function is in a state. -/
theorem C84_in_bounds {S : Type} {addrs : Nat → List UInt8} {n batch : Nat} {handle : S → Packet → Option (S × List Out)} (h2 : n ≤ 2)
    {s0 : S} (hspec : ∀ ps, MonoFrom 0 ps → (∀ p ∈ ps, p.time < timeMax ∧ p.device < n) →
      ∃ s' outs, Nf.Low.run handle s0 ps = some (s', outs) ∧ List.Forall₂ (Sensible n) ps outs)
    {full : Bool} {t0 k : Nat} {buf : Nat → Buf} {m : M S}
    (hs : Steps (config n batch addrs handle) full (begin s0 t0 buf k) m) {now input : Nat} {rx : List (Dpdk.Rx Buf)}
    (accept : Nat → Nat) (hnow : now < timeMax) (hin : input < n) (hrx : Dpdk.Receivable (config n batch addrs handle) m.st rx)
    (hp : (m.now :: rx.map Dpdk.Rx.time ++ [now]).Pairwise (· ≤ ·)) :
    ∃ t s, Dpdk.iteration (config n batch addrs handle) input rx accept m.st = some t ∧ t.nf = some s := by
  have hmn : m.now ≤ now := by
    rw [List.cons_append, List.pairwise_cons] at hp
    exact hp.1 now (by simp)
  have hs' : Steps (config n batch addrs handle) false (begin s0 t0 buf k) m := by
    clear hp hrx hmn
    induction hs with
    | refl => exact .refl
    | step _ h ih =>
      refine .step ih ?_
      cases h with
      | iterate t now input rx accept a b c _ e => exact .iterate _ _ _ _ _ _ a b c (fun h => by cases h) e
      | complete l l' b h => exact .complete _ _ _ _ h
  obtain ⟨ps, s, outs, inv⟩ := inv_steps h2 hspec hs' (by omega)
  obtain ⟨t, ps', s', outs', e, inv'⟩ := inv_iterate h2 hspec inv accept hnow hin hrx hp (fun h => by cases h)
  exact ⟨t, s', e, inv'.nf⟩

/-- But at any time, as many packets that the network function drops as there are buffers, received at once, are enough for nothing
to be received or sent any more, ever. -/
theorem C84_stops {S : Type} {addrs : Nat → List UInt8} {n batch : Nat} {handle : S → Packet → Option (S × List Out)} (h0 : 0 < n) (h2 : n ≤ 2)
    (hb : 0 < batch) {s0 : S} (hspec : ∀ ps, MonoFrom 0 ps → (∀ p ∈ ps, p.time < timeMax ∧ p.device < n) →
      ∃ s' outs, Nf.Low.run handle s0 ps = some (s', outs) ∧ List.Forall₂ (Sensible n) ps outs)
    (x : Buf) (hdrop : ∀ s time, handle s (packetOf x time 0) = none ∨ ∃ s', handle s (packetOf x time 0) = some (s', []))
    {full : Bool} {t0 k : Nat} {buf : Nat → Buf} {m : M S}
    (hs : Steps (config n batch addrs handle) full (begin s0 t0 buf k) m) (ht : m.now < timeMax) :
    ∃ (m' : M S) (i : Nat), Steps (config n batch addrs handle) full m m' ∧ m'.now = m.now ∧ i ≤ m.st.pool.length + m.st.card.length ∧
      m'.received 0 = m.received 0 ++ List.replicate i x ∧
      ∀ m'', Steps (config n batch addrs handle) full m' m'' → m''.received = m'.received ∧ m''.st.sent = m'.st.sent := by
  obtain ⟨ps, s, outs, inv⟩ := inv_steps h2 hspec hs ht
  obtain ⟨m1, a1, a2, a3, a4, a5, a6⟩ := completes (c := config n batch addrs handle) (full := full) _ m rfl
  obtain ⟨m2, i, b1, b2, b3, b4, b5, b6, b7⟩ := drops (c := config n batch addrs handle) (full := full) h0 hb x (fun g time => by
      show (handler handle g x time 0).2.2 = []
      unfold handler
      cases g with
      | none => rfl
      | some s =>
        simp only
        rcases hdrop s time with h | ⟨s', h⟩ <;> simp only [h, List.map_nil]) _ m1 (Nat.le_refl _)
    (fun d => by rw [a4]; exact inv.empty d) a5
  refine ⟨m2, i, steps_append a1 b1, b3.trans a2, by omega, ?_, fun m'' h => dead b4 b5 b6 h⟩
  rw [b7, a3]
  simp [Dpdk.upd]

/-! ### The network functions -/

/-- What the firewall must do, on DPDK: the packets received at the two devices, in the order in which they were, are sent as
C42 prescribes. -/
theorem C84_firewall {addrs : Nat → List UInt8} {batch : Nat} {l : Nf.Low.Layout} (hl : Placed l 16) {mem : Mem} {exp ext : Nat}
    {s0 : Nf.Low.State} (h0 : Nf.Low.alloc l mem exp = some s0) {full : Bool} {t0 k : Nat} {buf : Nat → Buf} {m : M Nf.Low.State}
    (hs : Steps (config 2 batch addrs (Nf.Low.Firewall.handle l ext)) full (begin s0 t0 buf k) m) (ht : m.now < timeMax) :
    ∃ ps, MonoFrom 0 ps ∧ (∀ p ∈ ps, p.time < timeMax ∧ p.device < 2) ∧ (∃ s, m.st.nf = some s) ∧
      Done addrs 2 full m ps (FirewallSpec.outputs l.size ext exp [] ps) := by
  obtain ⟨ps, outs, g1, g2, rfl, g4, g5⟩ := C84_carries_over (by omega)
    (Spec := fun ps outs => outs = FirewallSpec.outputs l.size ext exp [] ps)
    (fun ps hm hp => by
      obtain ⟨s, s', k1, k2⟩ := C71_firewall l hl mem exp ext ps hm hp
      rw [h0] at k1; cases k1
      exact ⟨s', _, k2, rfl, firewall_sensible _ _ _ ps _ fun p h => (hp p h).2⟩) hs ht
  exact ⟨ps, g1, g2, g4, g5⟩

/-- A packet that the firewall sends to the internal device was received as it is at the external device, and a packet of the
reversed flow was received at the internal device. To the external device, too, only packets that were received are sent. -/
theorem C84_firewall_unsolicited {addrs : Nat → List UInt8} {batch : Nat} {l : Nf.Low.Layout} (hl : Placed l 16) {mem : Mem}
    {exp ext : Nat} (he : ext < 2) {s0 : Nf.Low.State} (h0 : Nf.Low.alloc l mem exp = some s0) {full : Bool} {t0 k : Nat}
    {buf : Nat → Buf} {m : M Nf.Low.State}
    (hs : Steps (config 2 batch addrs (Nf.Low.Firewall.handle l ext)) full (begin s0 t0 buf k) m) (ht : m.now < timeMax) :
    (∀ w ∈ m.st.sent (1 - ext), w ∈ m.received ext ∧ isTcpUdp (MachineSpec.packetOf w) ∧
      ∃ q ∈ m.received (1 - ext), isTcpUdp (MachineSpec.packetOf q) ∧
        flow (MachineSpec.packetOf q) = reverse (flow (MachineSpec.packetOf w))) ∧
    ∀ w ∈ m.st.sent ext, w ∈ m.received (1 - ext) := by
  obtain ⟨ps, outs, -, g2, ⟨gl, g3⟩, g4, g5⟩ := C84_carries_over (by omega)
    (Spec := fun ps outs => outs.length = ps.length ∧ ∀ (n : Nat) (p : Packet) (o : List Out), ps[n]? = some p → outs[n]? = some o →
        (o = [] ∨ o = [Out.transmit p (1 - p.device) false]) ∧
        (¬ isTcpUdp p → o = []) ∧ (isTcpUdp p → p.device ≠ ext → o ≠ []) ∧
        (isTcpUdp p → p.device = ext → o ≠ [] →
          ∃ t, lastUse ext (reverse (flow p)) ((ps.zip outs).take n) = some t ∧ p.time ≤ t + exp))
    (fun ps hm hp => by
      obtain ⟨s, s', outs, k1, k2, k3, k4⟩ := C71_firewall_solicited l hl mem exp ext ps hp
      rw [h0] at k1; cases k1
      refine ⟨s', outs, k2, ⟨k3, k4⟩, ?_⟩
      rw [List.forall₂_iff_get]
      refine ⟨k3.symm, fun i hi hi' => ?_⟩
      exact sensible_other (hp _ (List.get_mem ..)).2
        (k4 i _ _ (by rw [List.getElem?_eq_getElem hi]; rfl) (by rw [List.getElem?_eq_getElem hi']; rfl)).1) hs ht
  have recv : ∀ i < 2, ∀ p ∈ ps, p.device = i → (p.data, p.length) ∈ m.received i := by
    intro i hi p hp hd
    rw [← g5.1 i hi]
    exact List.mem_map.mpr ⟨p, List.mem_filter.mpr ⟨hp, by simp [hd]⟩, rfl⟩
  have sent : ∀ d < 2, ∀ w ∈ m.st.sent d, ∃ (k : Nat) (p : Packet) (o : List Out), ps[k]? = some p ∧ outs[k]? = some o ∧ o ≠ [] ∧
      p.device = 1 - d ∧ w = (p.data, p.length) ∧ w ∈ m.received (1 - d) := by
    intro d hd w hw
    obtain ⟨taken, hsub, -, hf⟩ := g5.2 d hd
    obtain ⟨x, hx, rfl⟩ := List.getElem_of_mem hw
    rw [List.forall₂_iff_get] at hf
    have hx' : x < taken.length := by rw [hf.1]; exact hx
    have hle := hf.2 x hx' hx
    simp only [List.get_eq_getElem] at hle
    have hmem := hsub.subset (List.getElem_mem hx')
    rcases htx : taken[x] with ⟨p, o⟩
    rw [htx] at hle hmem
    unfold asking at hmem
    rw [List.mem_filter] at hmem
    obtain ⟨hz, hask⟩ := hmem
    have hask : Asks p o d := by simpa using hask
    obtain ⟨k, hk, e⟩ := List.getElem_of_mem hz
    have hk' : (ps.zip outs)[k]? = some (p, o) := by rw [List.getElem?_eq_getElem hk, e]
    rw [List.getElem?_zip_eq_some] at hk'
    have hp := List.mem_of_getElem? hk'.1
    have hdev := (g2 p hp).2
    rcases (g3 k p o hk'.1 hk'.2).1 with rfl | rfl
    · cases hask
    · have hask : d = 1 - p.device := hask
      obtain ⟨hlen, hdata⟩ := hle
      have hdata : Addressed addrs d false p (m.st.sent d)[x].1 := hdata
      have hw : (m.st.sent d)[x] = (p.data, p.length) := Prod.ext (hdata.1 rfl) hlen
      have hdd : p.device = 1 - d := by omega
      refine ⟨k, p, _, hk'.1, hk'.2, by simp, hdd, hw, ?_⟩
      rw [hw]
      exact recv _ (by omega) p hp hdd
  have tcp : ∀ (k : Nat) (p : Packet) (o : List Out), ps[k]? = some p → outs[k]? = some o → o ≠ [] → isTcpUdp p := by
    intro k p o hk ho hne
    exact Decidable.byContradiction fun hc => hne ((g3 k p o hk ho).2.1 hc)
  have origin : ∀ n f t, lastUse ext f ((ps.zip outs).take n) = some t →
      ∃ q ∈ ps, q.device ≠ ext ∧ isTcpUdp q ∧ flow q = f := by
    intro n
    induction n using Nat.strong_induction_on with
    | _ n ih =>
      intro f t h
      obtain ⟨k, p, o, hk, ht, hc⟩ := lastUse_mem h
      rw [List.getElem?_take] at hk
      split at hk
      swap
      · cases hk
      rename_i hkn
      rw [List.getElem?_zip_eq_some] at hk
      rcases hc with ⟨hd, hf⟩ | ⟨hd, hne, hf⟩
      · exact ⟨p, List.mem_of_getElem? hk.1, hd, ht, hf⟩
      · obtain ⟨t', h', _⟩ := (g3 k p o hk.1 hk.2).2.2.2 ht hd hne
        rw [hf] at h'
        exact ih k hkn f t' h'
  refine ⟨fun w hw => ?_, fun w hw => ?_⟩
  · obtain ⟨k, p, o, hk, ho, hon, hdev, rfl, hr⟩ := sent (1 - ext) (by omega) w hw
    have hee : 1 - (1 - ext) = ext := by omega
    rw [hee] at hdev hr
    have htu := tcp k p o hk ho hon
    obtain ⟨t, h', _⟩ := (g3 k p o hk ho).2.2.2 htu hdev hon
    obtain ⟨q, hq, hqd, hqt, hqf⟩ := origin _ _ _ h'
    have := (g2 q hq).2
    exact ⟨hr, htu, (q.data, q.length), recv _ (by omega) q hq (by omega), hqt, hqf⟩
  · obtain ⟨k, p, o, _, _, _, _, _, hr⟩ := sent ext he w hw
    exact hr

/-- The NAT on DPDK, with the bound on the number of flows that C43 needs. -/
theorem C84_nat_partial {addrs : Nat → List UInt8} {batch : Nat} {l : Nf.Low.Layout} (hl : Placed l 16) {mem : Mem} {exp : Nat}
    {c : Nf.NatNf.Config} (hea : c.externalAddr < 2 ^ 32) (hsp : c.startPort < 65536) (hsize : l.size ≤ 65536) (port0 : Flow → Nat)
    {s0 : Nf.Low.State} (h0 : Nf.Low.alloc l mem exp = some s0) {full : Bool} {t0 k : Nat} {buf : Nat → Buf} {m : M Nf.Low.State}
    (hs : Steps (config 2 batch addrs (Nf.Low.NatNf.handle l c)) full (begin s0 t0 buf k) m) (ht : m.now < timeMax) :
    ∃ ps outs, MonoFrom 0 ps ∧ (∀ p ∈ ps, p.time < timeMax ∧ p.device < 2) ∧
      (∃ t, NatSpec.Run (natConfig c l.size exp) ⟨[], port0⟩ ps outs t) ∧ (∃ s, m.st.nf = some s) ∧ Done addrs 2 full m ps outs :=
  C84_carries_over (by omega)
    (fun ps hm hp => by
      obtain ⟨s, s', outs, t, k1, k2, k3⟩ := C71_nat_partial l hl mem exp c ps hea hsp hsize hm hp port0
      rw [h0] at k1; cases k1
      exact ⟨s', outs, k2, ⟨t, k3⟩, nat_sensible k3 fun p h => (hp p h).2⟩) hs ht

/-- The policer on DPDK; the limit is that of C45, for packets handled in a row. -/
theorem C84_policer {addrs : Nat → List UInt8} {batch : Nat} {l : Nf.Low.Layout} (hl : Placed l 4) {mem : Mem}
    {c : Nf.Policer.Config} {s0 : Nf.Low.Policer.State} (h0 : Nf.Low.Policer.init l mem c = some s0) {full : Bool} {t0 k : Nat}
    {buf : Nat → Buf} {m : M Nf.Low.Policer.State}
    (hs : Steps (config 2 batch addrs (Nf.Low.Policer.handle l c)) full (begin s0 t0 buf k) m) (ht : m.now < timeMax) :
    ∃ ps outs, MonoFrom 0 ps ∧ (∀ p ∈ ps, p.time < timeMax ∧ p.device < 2) ∧
      (List.Forall₂ (fun p o => (o = [] ∨ o = [Out.transmit p (1 - p.device) false]) ∧ (¬ isIpv4 p → o = []) ∧
          (isIpv4 p → p.device ≠ c.wanDevice → o ≠ [])) ps outs ∧
        (c.rate ∣ c.burst → 1000000000 * c.burst < 2 ^ 64 → ∀ before window : List Packet, ps = before ++ window →
          ∀ a t0 T : Nat, (∀ p ∈ window, t0 ≤ p.time ∧ p.time ≤ t0 + T) →
            policedBytes c.wanDevice a window (outs.drop before.length) ≤ c.burst + c.rate * T)) ∧
      (∃ s, m.st.nf = some s) ∧ Done addrs 2 full m ps outs :=
  C84_carries_over (by omega)
    (fun ps hm hp => by
      have hrb : 0 < c.rate ∧ 0 < c.burst := by
        unfold Nf.Low.Policer.init at h0
        split at h0
        · cases h0
        · omega
      obtain ⟨s, s', outs, k1, k2, _, k3⟩ := C71_policer l hl mem c hrb.1 hrb.2 ps hm hp
      rw [h0] at k1; cases k1
      refine ⟨s', outs, k2, ⟨k3, ?_⟩, forall₂_imp k3 fun p hpm o ho => sensible_other (hp p hpm).2 ho.1⟩
      rintro hdvd hexp before window rfl a t0 T hT
      obtain ⟨t, o1, o2, r1, r2, rfl, r3⟩ := run_append before window _ _ _ k2
      rw [← r3, List.drop_left]
      exact C71_policer_rate_partial l hl mem c hdvd hexp before window _ _ _ _ _ a t0 T hm hp hT h0 r1 r2) hs ht

/-- The bridge on DPDK, with two devices. -/
theorem C84_bridge_partial {addrs : Nat → List UInt8} {batch : Nat} {c : BridgeSpec.Config} {l : Nf.Low.Layout} (hl : Placed l 6) {mem : Mem}
    (hc : c.size = l.size) {bid : Nat} (hn : c.devices = 2)
    {s0 : Nf.Low.Bridge.State} (h0 : Nf.Low.Bridge.init l mem c.devices bid c.exp c.updateTime = some s0) {full : Bool} {t0 k : Nat}
    {buf : Nat → Buf} {m : M Nf.Low.Bridge.State}
    (hs : Steps (config c.devices batch addrs (Nf.Low.Bridge.handle l)) full (begin s0 t0 buf k) m) (ht : m.now < timeMax) :
    ∃ ps outs, MonoFrom 0 ps ∧ (∀ p ∈ ps, p.time < timeMax ∧ p.device < c.devices) ∧
      (∃ t, BridgeSpec.Run c (bridgeStart c) ps outs t) ∧ (∃ s, m.st.nf = some s) ∧ Done addrs c.devices full m ps outs :=
  C84_carries_over (by omega)
    (fun ps hm hp => by
      obtain ⟨s, s', outs, t, k1, k2, k3⟩ := C71_bridge l hl mem c hc bid ps (by omega) hm hp
      rw [h0] at k1; cases k1
      exact ⟨s', outs, k2, ⟨t, k3⟩, bridge_sensible k3 (fun p h => (hp p h).2) (by simp [bridgeStart]) (by simp [bridgeStart])⟩) hs ht

/-- The balancer on DPDK with two devices, thus one backend, under the conditions of C47. -/
theorem C84_maglev_partial {addrs : Nat → List UInt8} {batch : Nat} {l : Nf.Low.Layout} (hl : Placed l 16) {mem : Mem}
    {fexp bexp h : Nat} (hcap : 1 < h) (hh : h < 40000)
    {s0 : Nf.Low.Maglev.Balancer} (h0 : Nf.Low.Maglev.init l mem 2 fexp bexp h = some s0) {full : Bool} {t0 k : Nat}
    {buf : Nat → Buf} {m : M Nf.Low.Maglev.Balancer}
    (hs : Steps (config 2 batch addrs (Nf.Low.Maglev.handle l 2)) full (begin s0 t0 buf k) m) (ht : m.now < timeMax) :
    ∃ ps outs, MonoFrom 0 ps ∧ (∀ p ∈ ps, p.time < timeMax ∧ p.device < 2) ∧
      (∃ choose, BalanceOk 2 bexp choose (fun _ => none) ps outs) ∧ (∃ s, m.st.nf = some s) ∧ Done addrs 2 full m ps outs :=
  C84_carries_over (by omega)
    (fun ps _ hp => by
      obtain ⟨s, choose, k1, k2⟩ := C71_maglev_partial l hl mem 2 fexp bexp h (by omega) (by omega) hh (fun s h1 h2 => by
        rw [show s = 1 by omega]; exact Nat.coprime_one_right h)
      rw [h0] at k1; cases k1
      obtain ⟨s', outs, k3, k4⟩ := k2 ps fun p h => (hp p h).1
      exact ⟨s', outs, k3, ⟨choose, k4⟩, maglev_sensible ps outs _ k4⟩) hs ht

/-- So the firewall can be stopped for good by anyone who can send to device 0: by packets that are not IPv4. -/
theorem C84_firewall_stops {addrs : Nat → List UInt8} {batch : Nat} (hb : 0 < batch) {l : Nf.Low.Layout} (hl : Placed l 16) {mem : Mem}
    {exp ext : Nat} {s0 : Nf.Low.State} (h0 : Nf.Low.alloc l mem exp = some s0) (x : Buf)
    (hx : ¬ isIpv4 (MachineSpec.packetOf x)) {full : Bool} {t0 k : Nat} {buf : Nat → Buf} {m : M Nf.Low.State}
    (hs : Steps (config 2 batch addrs (Nf.Low.Firewall.handle l ext)) full (begin s0 t0 buf k) m) (ht : m.now < timeMax) :
    ∃ (m' : M Nf.Low.State) (i : Nat), Steps (config 2 batch addrs (Nf.Low.Firewall.handle l ext)) full m m' ∧ m'.now = m.now ∧
      i ≤ m.st.pool.length + m.st.card.length ∧ m'.received 0 = m.received 0 ++ List.replicate i x ∧
      ∀ m'', Steps (config 2 batch addrs (Nf.Low.Firewall.handle l ext)) full m' m'' →
        m''.received = m'.received ∧ m''.st.sent = m'.st.sent :=
  C84_stops (by omega) (by omega) hb (fun ps hm hp => by
      obtain ⟨s, s', k1, k2⟩ := C71_firewall l hl mem exp ext ps hm hp
      rw [h0] at k1; cases k1
      exact ⟨s', _, k2, firewall_sensible _ _ _ ps _ fun p h => (hp p h).2⟩) x (fun s time => by
      right
      have hip : ¬ isIpv4 (packetOf x time 0) := hx
      simp [Nf.Low.Firewall.handle, Nf.getIpv4Header_eq, hip]) hs ht

/-! ### Examples -/

namespace DpdkMachineExample
open Verif.Dpdk MachineExample

variable {S : Type}

/-- An iteration in which one packet is received at the time `now`, and cards take everything. -/
def recv (c : Config (Option S) Buf) (input b : Nat) (d : Buf) (now : Nat) (m : M S) : M S :=
  ⟨(iteration c input [⟨b, d, now⟩] (fun _ => c.batch) m.st).getD m.st, now, upd m.received input (m.received input ++ [d])⟩

theorem recv_steps {c : Config (Option S) Buf} {full : Bool} {m0 m : M S} (input b : Nat) (d : Buf) (now : Nat) (h : input < c.devices)
    (hb : 0 < c.batch) (hm : b ∈ m.st.pool) (hn : m.now ≤ now)
    (hi : (iteration c input [⟨b, d, now⟩] (fun _ => c.batch) m.st).isSome = true)
    (hs : Steps c full m0 m) : Steps c full m0 (recv c input b d now m) := by
  obtain ⟨t, ht⟩ := Option.isSome_iff_exists.mp hi
  refine .step hs ?_
  have := Step.iterate (full := full) m t now input [⟨b, d, now⟩] (fun _ => c.batch) h ⟨hb, by simp, by simpa using hm⟩
    (by simpa using hn) (fun _ _ => Nat.le_refl _) ht
  simpa [recv, ht] using this

def addrs : Nat → List UInt8 := fun i => [3, 3, 3, 3, 3, UInt8.ofNat i]

/-- The firewall with external device 1 and a batch size of 2. -/
def fw : Config (Option Nf.Low.State) Buf := config 2 2 addrs (Nf.Low.Firewall.handle place 1)
def b0 : M Nf.Low.State := begin s0 5 (fun _ => (fun _ => 0, 0)) 3
/-- A packet has gone out. -/
def b1 : M Nf.Low.State := recv fw 0 0 ((samplePacket 1 2 3 4 0 0).data, 60) 7 b0
/-- Its reply has come in. -/
def b2 : M Nf.Low.State := recv fw 1 1 ((samplePacket 2 1 4 3 1 9).data, 64) 9 b1
/-- Another packet has been dropped: its buffer is lost. -/
def b3 : M Nf.Low.State := recv fw 1 2 ((samplePacket 2 1 4 9 1 9).data, 60) 9 b2

theorem bsteps : Steps fw true b0 b3 :=
  recv_steps 1 2 _ 9 (by decide) (by decide) (by decide +kernel) (by decide) (by decide +kernel)
    (recv_steps 1 1 _ 9 (by decide) (by decide) (by decide +kernel) (by decide) (by decide +kernel)
      (recv_steps 0 0 _ 7 (by decide) (by decide) (by decide +kernel) (by decide) (by decide +kernel) .refl))

/-- The hypotheses of the theorems about the firewall, in a state where a packet has gone out, its reply has come in and
another packet has been dropped. -/
example : Placed place 16 ∧ Nf.Low.alloc place (fun _ => 0) 1000 = some s0 ∧ Steps fw true b0 b3 ∧ b3.now < timeMax ∧
    (b3.st.sent 0).map Prod.snd = [64] ∧ (b3.st.sent 1).map Prod.snd = [60] ∧ b3.st.pool = [] ∧ b3.st.card = [0, 1] ∧
    ¬ isIpv4 (MachineSpec.packetOf (fun _ => 0, 60)) :=
  ⟨by simp [Placed, place], by simp [s0], bsteps, by decide +kernel, by decide +kernel, by decide +kernel, by decide +kernel,
    by decide +kernel, by decide⟩

/-- What C84_firewall_unsolicited says of the reply. -/
example : ∃ q ∈ b3.received 0, flow (MachineSpec.packetOf q) = reverse (flow (samplePacket 2 1 4 3 1 9)) := by
  obtain ⟨w, hw, hw2⟩ : ∃ w ∈ b3.st.sent 0, flow (MachineSpec.packetOf w) = flow (samplePacket 2 1 4 3 1 9) := by
    decide +kernel
  obtain ⟨-, -, q, hq, -, h⟩ := (C84_firewall_unsolicited (by simp [Placed, place]) (by omega) (mem := fun _ => 0)
    (exp := 1000) (by simp [s0]) bsteps (by decide +kernel)).1 w hw
  exact ⟨q, hq, by rw [h, hw2]⟩

/-- The hypotheses of C84_carries_over, C84_in_bounds and C84_stops about the network function. -/
example (ps : List Packet) (hm : MonoFrom 0 ps) (hp : ∀ p ∈ ps, p.time < timeMax ∧ p.device < 2) :
    ∃ s' outs, Nf.Low.run (Nf.Low.Firewall.handle place 1) s0 ps = some (s', outs) ∧ outs.length = ps.length ∧
      List.Forall₂ (Sensible 2) ps outs := by
  obtain ⟨s, s', k1, k2⟩ := C71_firewall place (by simp [Placed, place]) (fun _ => 0) 1000 1 ps hm hp
  have : s = s0 := by rw [show Nf.Low.alloc place (fun _ => 0) 1000 = some s0 by simp [s0]] at k1; exact (Option.some.inj k1).symm
  rw [this] at k2
  have hs := firewall_sensible place.size 1 1000 ps [] fun p h => (hp p h).2
  exact ⟨s', _, k2, hs.length_eq.symm, hs⟩

/-- The other hypotheses of C84_in_bounds, in that state, when the two cards have sent their packets. -/
example : ∃ m : M Nf.Low.State, Steps fw true b0 m ∧
    Receivable fw m.st [⟨0, (fun _ => 0, 60), 10⟩, ⟨1, (fun _ => 0, 60), 10⟩] ∧
    (m.now :: [10, 10] ++ [11]).Pairwise (· ≤ ·) :=
  ⟨_, .step (.step bsteps (.complete _ [] [1] 0 (by decide +kernel))) (.complete _ [] [] 1 rfl), by
    refine ⟨by decide, by decide, ?_⟩
    intro r hr
    simp only [List.mem_cons, List.not_mem_nil, or_false] at hr
    rcases hr with rfl | rfl <;> simp, by decide +kernel⟩

/-- A NAT with WAN device 1. -/
def nat : Config (Option Nf.Low.State) Buf := config 2 2 addrs (Nf.Low.NatNf.handle place natConf)
def nat1 : M Nf.Low.State := recv nat 0 0 ((samplePacket 1 2 3 4 0 0).data, 60) 7 b0

/-- The hypotheses of C84_nat_partial, in a state where a packet has gone out from the external address and port. -/
example : natConf.externalAddr < 2 ^ 32 ∧ natConf.startPort < 65536 ∧ place.size ≤ 65536 ∧ Steps nat true b0 nat1 ∧
    (nat1.st.sent 1).map (fun w => (w.2, PacketSpec.dword (MachineSpec.packetOf w) 26, PacketSpec.word (MachineSpec.packetOf w) 34,
      w.1 0, w.1 6)) = [(60, 77, 1000, 1, 3)] :=
  ⟨by decide, by decide, by decide,
    recv_steps 0 0 _ 7 (by decide) (by decide) (by decide +kernel) (by decide) (by decide +kernel) .refl, by decide +kernel⟩

def pol : Config (Option Nf.Low.Policer.State) Buf := config 2 2 addrs (Nf.Low.Policer.handle place4 polConf)
def pol1 : M Nf.Low.Policer.State := recv pol 1 0 ((samplePacket 1 2 3 4 0 0).data, 60) 7 (begin pol0 5 (fun _ => (fun _ => 0, 0)) 3)
/-- Over the limit. -/
def pol2 : M Nf.Low.Policer.State := recv pol 1 1 ((samplePacket 1 2 3 4 0 0).data, 60) 8 pol1

/-- The hypotheses of C84_policer, in a state where a packet has gone in and another one has not. -/
example : Placed place4 4 ∧ Nf.Low.Policer.init place4 (fun _ => 0) polConf = some pol0 ∧ polConf.rate ∣ polConf.burst ∧
    1000000000 * polConf.burst < 2 ^ 64 ∧ Steps pol true (begin pol0 5 (fun _ => (fun _ => 0, 0)) 3) pol2 ∧
    (pol2.st.sent 0).map Prod.snd = [60] :=
  ⟨by simp [Placed, place4], by simp [pol0], by decide, by decide,
    recv_steps 1 1 _ 8 (by decide) (by decide) (by decide +kernel) (by decide) (by decide +kernel)
      (recv_steps 1 0 _ 7 (by decide) (by decide) (by decide +kernel) (by decide) (by decide +kernel) .refl),
    by decide +kernel⟩

def briConf : BridgeSpec.Config := ⟨2, 4, 1000, 1000⟩
theorem briAllocated : (Nf.Low.Bridge.init place6 (fun _ => 0) 2 7 1000 1000).isSome = true := by decide +kernel
def bri0 : Nf.Low.Bridge.State := (Nf.Low.Bridge.init place6 (fun _ => 0) 2 7 1000 1000).get briAllocated
def bri : Config (Option Nf.Low.Bridge.State) Buf := config 2 2 addrs (Nf.Low.Bridge.handle place6)
def bri1 : M Nf.Low.Bridge.State := recv bri 0 0 ((frame 4 2 0 1).data, 60) 7 (begin bri0 5 (fun _ => (fun _ => 0, 0)) 3)
/-- In time for a message of the spanning tree. -/
def bri2 : M Nf.Low.Bridge.State := recv bri 0 1 ((frame 4 2 0 1).data, 20) 1001 bri1

theorem bri_steps : Steps bri true (begin bri0 5 (fun _ => (fun _ => 0, 0)) 3) bri2 :=
  recv_steps 0 1 _ 1001 (by decide) (by decide) (by decide +kernel) (by decide) (by decide +kernel)
    (recv_steps 0 0 _ 7 (by decide) (by decide) (by decide +kernel) (by decide) (by decide +kernel) .refl)

/-- The hypotheses of C84_bridge_partial, in a state where a packet from device 0 was flooded and another one has become a message
of the spanning tree. -/
example : Placed place6 6 ∧ briConf.size = place6.size ∧ briConf.devices = 2 ∧
    Nf.Low.Bridge.init place6 (fun _ => 0) briConf.devices 7 briConf.exp briConf.updateTime = some bri0 ∧
    Steps bri true (begin bri0 5 (fun _ => (fun _ => 0, 0)) 3) bri2 ∧ bri2.now < timeMax ∧
    (bri2.st.sent 1).map Prod.snd = [60, 20] :=
  ⟨by simp [Placed, place6], rfl, rfl, by simp [bri0, briConf], bri_steps, by decide +kernel, by decide +kernel⟩

theorem balAllocated : (Nf.Low.Maglev.init place (fun _ => 0) 2 100 100 5).isSome = true := by decide +kernel
def bal0 : Nf.Low.Maglev.Balancer := (Nf.Low.Maglev.init place (fun _ => 0) 2 100 100 5).get balAllocated
def bal : Config (Option Nf.Low.Maglev.Balancer) Buf := config 2 2 addrs (Nf.Low.Maglev.handle place 2)
def bal1 : M Nf.Low.Maglev.Balancer := recv bal 0 0 ((samplePacket 9 9 9 9 0 0).data, 60) 7 (begin bal0 5 (fun _ => (fun _ => 0, 0)) 3)
def bal2 : M Nf.Low.Maglev.Balancer := recv bal 1 1 ((samplePacket 1 2 3 4 0 0).data, 60) 8 bal1

/-- The hypotheses of C84_maglev_partial, in a state where the backend has sent a heartbeat and got a packet. -/
example : Placed place 16 ∧ Nf.Low.Maglev.init place (fun _ => 0) 2 100 100 5 = some bal0 ∧ (1 < 5 ∧ 5 < 40000) ∧
    Steps bal true (begin bal0 5 (fun _ => (fun _ => 0, 0)) 3) bal2 ∧ (bal2.st.sent 0).map Prod.snd = [60] :=
  ⟨by simp [Placed, place], by simp [bal0], by decide,
    recv_steps 1 1 _ 8 (by decide) (by decide) (by decide +kernel) (by decide) (by decide +kernel)
      (recv_steps 0 0 _ 7 (by decide) (by decide) (by decide +kernel) (by decide) (by decide +kernel) .refl),
    by decide +kernel⟩

theorem bri1_some : bri1.st.nf.isSome = true := by decide +kernel

end DpdkMachineExample

open DpdkMachineExample in
/-- The messages of the spanning tree do not leave with the length that the bridge gives them: main.c:155 copies the length of the
buffer to the packet, and nothing copies it back. Here the message has 34 bytes and 20 are sent. -/
theorem C84_message_length_fails : ∃ (s0 s : Nf.Low.Bridge.State) (x : Buf) (q : Packet) (m1 m2 : M Nf.Low.Bridge.State),
    Nf.Low.Bridge.init MachineExample.place6 (fun _ => 0) 2 7 1000 1000 = some s0 ∧
    Steps bri true (begin s0 5 (fun _ => (fun _ => 0, 0)) 3) m1 ∧ m1.st.nf = some s ∧
    ((Nf.Low.Bridge.handle MachineExample.place6 s (packetOf x 1001 0)).map Prod.snd) = some [.flood q true] ∧ q.length = 34 ∧
    Steps bri true m1 m2 ∧ m2.received 0 = m1.received 0 ++ [x] ∧ (m2.st.sent 1).map Prod.snd = (m1.st.sent 1).map Prod.snd ++ [20] := by
  have hq : (match (Nf.Low.Bridge.handle MachineExample.place6 (bri1.st.nf.get bri1_some) (packetOf ((frame 4 2 0 1).data, 20) 1001 0)).map Prod.snd with
      | some [.flood q true] => decide (q.length = 34)
      | _ => false) = true := by decide +kernel
  split at hq
  · rename_i q he
    exact ⟨bri0, bri1.st.nf.get bri1_some, ((frame 4 2 0 1).data, 20), q, bri1, bri2, by simp [bri0],
      recv_steps 0 0 _ 7 (by decide) (by decide) (by decide +kernel) (by decide) (by decide +kernel) .refl, by simp, he,
      of_decide_eq_true hq,
      recv_steps 0 1 _ 1001 (by decide) (by decide) (by decide +kernel) (by decide) (by decide +kernel) .refl, rfl, by decide +kernel⟩
  · cases hq

end Verif.Props
