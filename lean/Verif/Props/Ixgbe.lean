/- Properties C54 and C55: the driver's packet processing, for every interleaving with the
network cards. The proofs are by the invariant of Verif.Env.IxgbeProofs. -/
import Verif.Env.IxgbeProofs

set_option autoImplicit false

namespace Verif.Props
open Verif.Ixgbe

variable {σ D : Type} {outs : Nat} {h : Handler σ D} {nf0 : σ} {buf0 : Nat → D} {s : St σ D}

/-! ### C54 Each received packet is handled once, in order, and sent as the handler asked -/

/-- What was sent on each output is the result of handling some first packets received,
one after the other, with output lengths that start at zero. -/
theorem C54_exactly_once (ho : 0 < outs) (hb : Bounded outs h) (hs : Steps outs h (start nf0 buf0) s) (n : Nat)
    (hn : n < outs) :
    ∃ k ≤ s.received.length, s.sent n = (handleAll h nf0 (s.received.take k)).2.map fun o => (o.1, o.2 n) := by
  obtain ⟨g, hi⟩ := inv_steps ho hb (inv_start outs h nf0 buf0) hs
  have o := hi.order n hn
  refine ⟨(s.sent n).length, by omega, ?_⟩
  conv_lhs => rw [hi.sent n hn]
  rw [handleAll_take]

/-- Once the agent has seen that there are no further packets, and the cards have sent what
they were told to send, everything received has been handled and sent. -/
theorem C54_nothing_lost (ho : 0 < outs) (hb : Bounded outs h) (hs : Steps outs h (start nf0 buf0) s)
    (hpc : s.pc = .poll 0) (hd : done (s.ring 0 s.pd) = false) (n : Nat) (hn : n < outs) (ht : s.tdh n = s.tdt n) :
    s.sent n = (handleAll h nf0 s.received).2.map fun o => (o.1, o.2 n) := by
  obtain ⟨g, hi⟩ := inv_steps ho hb (inv_start outs h nf0 buf0) hs
  have o := hi.order n hn
  have hp := hi.pcOk
  unfold PcOk at hp
  rw [hpc] at hp
  have hT := hp.2.2 rfl n hn
  have hP : ¬ g.P < s.received.length := by
    intro hlt
    rw [(hi.done_iff (by rw [hpc]; rfl)).2 hlt] at hd
    cases hd
  have h1 := hi.tdh n hn
  have h2 := hi.tdt n hn
  have hlen : (s.sent n).length = s.received.length := by omega
  conv_lhs => rw [hi.sent n hn]
  rw [hlen, List.take_of_length_le (by rw [handleAll_length]; exact Nat.le_refl _)]

/-- Whenever the agent is between packets, the state of the network function is that of
handling some first packets received. -/
theorem C54_state (ho : 0 < outs) (hb : Bounded outs h) (hs : Steps outs h (start nf0 buf0) s) :
    ∃ k ≤ s.received.length, s.nf = (handleAll h nf0 (s.received.take k)).1 := by
  obtain ⟨g, hi⟩ := inv_steps ho hb (inv_start outs h nf0 buf0) hs
  exact ⟨_, hi.cur_le, hi.nf⟩

/-- Slot `i` is one of those from `a` on, cyclically, before `b`. -/
def Slots (a b i : Nat) : Prop := i < 256 ∧ (i + 256 - a) % 256 < (b + 256 - a) % 256

/-- The buffers that wait to be sent, on any output, and the buffer of the packet being
handled are not the one the input card may write to. -/
theorem C54_buffers_apart (ho : 0 < outs) (hb : Bounded outs h) (hs : Steps outs h (start nf0 buf0) s) :
    (∀ n < outs, ∀ i, Slots (s.tdh n) s.pd i → i ≠ s.rdh) ∧ ((∀ fc, s.pc ≠ .poll fc) → (∀ n, s.pc ≠ .flush n) →
      (∀ fc n e d, s.pc ≠ .readHead fc n e d) → (∀ fc e, s.pc ≠ .writeTail fc e) → s.pd ≠ s.rdh) := by
  obtain ⟨g, hi⟩ := inv_steps ho hb (inv_start outs h nf0 buf0) hs
  have hr := hi.rdh
  have ht := hi.rdt
  have hp := hi.pd
  refine ⟨fun n hn i ⟨h1, h2⟩ => ?_, fun h1 h2 h3 h4 => ?_⟩
  · have o := hi.order n hn
    have := hi.tdh n hn
    omega
  · have o := hi.order 0 ho
    have hlt : g.P < s.received.length := by
      have hp := hi.pcOk
      unfold PcOk at hp
      cases hpc : s.pc with
      | poll => exact absurd hpc (h1 _)
      | flush => exact absurd hpc (h2 _)
      | readHead => exact absurd hpc (h3 _ _ _ _)
      | writeTail => exact absurd hpc (h4 _ _)
      | handle =>
        rw [hpc] at hp
        obtain ⟨-, -, p, hp, -⟩ := hp
        exact (List.getElem?_eq_some_iff.1 hp).1
      | writeDesc => rw [hpc] at hp; exact hp.2.2.1
      | advance => rw [hpc] at hp; exact hp.2.1
    omega

/-- Every index the driver uses or writes to a register is inside of the ring. -/
theorem C54_in_bounds (ho : 0 < outs) (hb : Bounded outs h) (hs : Steps outs h (start nf0 buf0) s) :
    s.pd < 256 ∧ s.rdt < 256 ∧ ∀ n < outs, s.tdt n < 256 := by
  obtain ⟨g, hi⟩ := inv_steps ho hb (inv_start outs h nf0 buf0) hs
  refine ⟨?_, ?_, fun n hn => ?_⟩
  · rw [hi.pd]; omega
  · rw [hi.rdt]; omega
  · rw [hi.tdt n hn]; omega

/-! ### C55 The driver never stops receiving -/

/-- The agent waits for a packet. -/
def Idle (s : St σ D) : Prop := s.pc = .poll 0 ∧ done (s.ring 0 s.pd) = false

/-- Steps of the agent alone. -/
inductive Alone (outs : Nat) (h : Handler σ D) (s : St σ D) : St σ D → Prop
  | refl : Alone outs h s s
  | step {t : St σ D} : Alone outs h s t → Alone outs h s (agentStep outs h t)

theorem Alone.trans {t u : St σ D} (h1 : Alone outs h s t) (h2 : Alone outs h t u) : Alone outs h s u := by
  induction h2 with
  | refl => exact h1
  | step _ ih => exact ih.step

theorem Alone.steps {t : St σ D} (h1 : Alone outs h s t) : Steps outs h s t := by
  induction h1 with
  | refl => exact .refl
  | step _ ih => exact ih.step (.agent _)

theorem Steps.trans {t u : St σ D} (h1 : Steps outs h s t) (h2 : Steps outs h t u) : Steps outs h s u := by
  induction h2 with
  | refl => exact h1
  | step _ h3 ih => exact ih.step h3

/-- How far the agent is from waiting. -/
def rank (outs : Nat) : Pc → Nat
  | .advance .. => 0
  | .writeDesc _ n _ => 1 + (outs - n)
  | .handle .. => outs + 2
  | .poll 0 => outs + 3
  | .flush n => outs + 4 + (outs - n)
  | .poll _ => 2 * outs + 5
  | .writeTail .. => 2 * outs + 6
  | .readHead _ n _ _ => 2 * outs + 7 + (outs - n)

theorem agent_frame (s : St σ D) : (agentStep outs h s).received = s.received ∧ (agentStep outs h s).sent = s.sent ∧
    (agentStep outs h s).rdh = s.rdh := by
  unfold agentStep
  cases s.pc <;> dsimp only <;> (repeat' split) <;> exact ⟨rfl, rfl, rfl⟩

theorem Alone.frame {t : St σ D} (h1 : Alone outs h s t) : t.received = s.received ∧ t.sent = s.sent ∧ t.rdh = s.rdh := by
  induction h1 with
  | refl => exact ⟨rfl, rfl, rfl⟩
  | step _ ih =>
    obtain ⟨a, b, c⟩ := agent_frame (outs := outs) (h := h) ‹St σ D›
    exact ⟨a.trans ih.1, b.trans ih.2.1, c.trans ih.2.2⟩

theorem rank_step (ho : 0 < outs) (hb : Bounded outs h) {g : Ghost} (hi : Inv outs h nf0 s g) (hn : ¬ Idle s) :
    ∃ g', Inv outs h nf0 (agentStep outs h s) g' ∧
      (s.received.length - g'.P) * (3 * outs + 8) + rank outs (agentStep outs h s).pc <
        (s.received.length - g.P) * (3 * outs + 8) + rank outs s.pc := by
  have hp := hi.pcOk
  unfold PcOk at hp
  cases hpc : s.pc with
  | poll fc =>
    refine ⟨g, inv_poll hi fc hpc, ?_⟩
    unfold agentStep
    rw [hpc]
    dsimp only
    have hr : fc ≠ 0 → rank outs (.poll fc) = 2 * outs + 5 := by
      intro h0; cases fc with
      | zero => exact absurd rfl h0
      | succ => rfl
    split
    · split
      · have : outs + 3 ≤ rank outs (.poll fc) := by
          by_cases h0 : fc = 0
          · subst h0; exact Nat.le_refl _
          · rw [hr h0]; omega
        have hh : rank outs (.handle fc (lenOf (s.ring 0 s.pd))) = outs + 2 := rfl
        dsimp only
        rw [hh]; omega
      · split
        · rename_i h0
          rw [hr h0]; simp only [rank]; omega
        · rename_i hd h0
          exfalso
          have : fc = 0 := by omega
          subst this
          exact hn ⟨hpc, by simpa using hd⟩
    · rename_i hf
      have h0 : fc ≠ 0 := by rintro rfl; exact hf (by decide)
      rw [hr h0]; simp only [rank]; omega
  | handle fc len =>
    refine ⟨g, inv_handle hi ho fc len hpc, ?_⟩
    unfold agentStep
    rw [hpc]
    simp only [rank]; omega
  | writeDesc fc n rs =>
    refine ⟨g, inv_writeDesc hi fc n rs hpc, ?_⟩
    unfold agentStep
    rw [hpc]
    dsimp only
    split <;> simp only [rank] <;> omega
  | advance fc rs =>
    refine ⟨_, inv_advance hb ho hi fc rs hpc, ?_⟩
    rw [hpc] at hp
    have hlt := hp.2.1
    have : (s.received.length - g.P) * (3 * outs + 8) = (s.received.length - (g.P + 1)) * (3 * outs + 8) + (3 * outs + 8) := by
      have : s.received.length - g.P = (s.received.length - (g.P + 1)) + 1 := by omega
      rw [this, Nat.add_mul, Nat.one_mul]
    unfold agentStep
    rw [hpc]
    dsimp only
    rw [this]
    split <;> simp only [rank] <;> omega
  | readHead fc n e d =>
    refine ⟨g, inv_readHead hi ho fc n e d hpc, ?_⟩
    unfold agentStep
    rw [hpc]
    dsimp only
    split
    · split <;> simp only [rank] <;> omega
    · simp only [rank]; omega
  | writeTail fc e =>
    obtain ⟨m, -, -, -, -, h'⟩ := inv_writeTail hi ho fc e hpc
    refine ⟨_, h', ?_⟩
    unfold agentStep
    rw [hpc]
    simp only [rank]; omega
  | flush n =>
    obtain ⟨g', h', hP, -⟩ := inv_flush hi n hpc
    refine ⟨g', h', ?_⟩
    rw [hP]
    unfold agentStep
    rw [hpc]
    dsimp only
    split <;> simp only [rank] <;> omega

theorem runs_idle (ho : 0 < outs) (hb : Bounded outs h) (k : Nat) : ∀ (s : St σ D) (g : Ghost), Inv outs h nf0 s g →
    (s.received.length - g.P) * (3 * outs + 8) + rank outs s.pc < k → ∃ t, Alone outs h s t ∧ Idle t := by
  induction k with
  | zero => intro s g _ hk; omega
  | succ k ih =>
    intro s g hi hk
    by_cases hn : Idle s
    · exact ⟨s, .refl, hn⟩
    · obtain ⟨g', hi', hlt⟩ := rank_step ho hb hi hn
      obtain ⟨t, ht, hid⟩ := ih _ g' hi' (by rw [(agent_frame s).1]; omega)
      exact ⟨t, (Alone.step .refl).trans ht, hid⟩

/-- From every reachable state, the agent on its own gets to the point where it has
handled all packets received and waits for the next. -/
theorem C55_catches_up (ho : 0 < outs) (hb : Bounded outs h) (hs : Steps outs h (start nf0 buf0) s) :
    ∃ t, Alone outs h s t ∧ Idle t ∧ t.received = s.received ∧ t.nf = (handleAll h nf0 s.received).1 := by
  obtain ⟨g, hi⟩ := inv_steps ho hb (inv_start outs h nf0 buf0) hs
  obtain ⟨t, ht, hid⟩ := runs_idle ho hb _ s g hi (Nat.lt_succ_self _)
  obtain ⟨g', hi'⟩ := inv_steps ho hb (inv_start outs h nf0 buf0) (Steps.trans hs ht.steps)
  refine ⟨t, ht, hid, ht.frame.1, ?_⟩
  have hc : current t.pc = 0 := by rw [hid.1]; rfl
  have : ¬ g'.P < t.received.length := by
    intro hlt
    have := (hi'.done_iff hc).2 hlt
    rw [hid.2] at this
    cases this
  rw [hi'.nf, hc, List.take_of_length_le (by omega), ht.frame.1]

/-- The agent waits, and the input card has no descriptor left to put a packet into. -/
def Stalled (s : St σ D) : Prop := Idle s ∧ s.rdh = s.rdt

theorem stalled_step {t : St σ D} (hs : Stalled s) (h1 : Step outs h s t) : Stalled t ∧ t.received = s.received := by
  obtain ⟨⟨h2, h3⟩, h4⟩ := hs
  cases h1 with
  | agent =>
    have : agentStep outs h s = s := by
      unfold agentStep
      rw [h2]
      dsimp only
      rw [if_pos (by decide), if_neg (by rw [h3]; decide), if_neg (by decide), ← h2]
    rw [this]
    exact ⟨⟨⟨h2, h3⟩, h4⟩, rfl⟩
  | fill d hne => exact absurd h4 hne
  | complete m hne => exact absurd h4 hne
  | send => exact ⟨⟨⟨h2, h3⟩, h4⟩, rfl⟩
  | writeBack => exact ⟨⟨⟨h2, h3⟩, h4⟩, rfl⟩

theorem stalled_steps {t : St σ D} (hs : Stalled s) (h1 : Steps outs h s t) : Stalled t ∧ t.received = s.received := by
  induction h1 with
  | refl => exact ⟨hs, rfl⟩
  | step _ h2 ih =>
    obtain ⟨a, b⟩ := stalled_step ih.1 h2
    exact ⟨a, b.trans ih.2⟩

/-- Packets can arrive, and be handled, while none is sent, until no descriptor is left. -/
theorem fills_up (ho : 0 < outs) (hb : Bounded outs h) (nf0 : σ) (buf0 : Nat → D) (k : Nat) (hk : k ≤ 255) :
    ∃ s, Steps outs h (start nf0 buf0) s ∧ Idle s ∧ s.received.length = k ∧ s.rdt = 255 ∧ ∀ n, s.sent n = [] := by
  induction k with
  | zero => exact ⟨_, .refl, ⟨rfl, by simp [start, done]⟩, rfl, rfl, fun _ => rfl⟩
  | succ k ih =>
    obtain ⟨s, hs, hid, hlen, hrdt, hsent⟩ := ih (by omega)
    obtain ⟨g, hi⟩ := inv_steps ho hb (inv_start outs h nf0 buf0) hs
    have hrdh := hi.rdh
    have hne : s.rdh ≠ s.rdt := by omega
    have h1 := hs.step (.complete s (1#64 <<< 32) hne (by decide))
    obtain ⟨t, ht, hidt, hrec, -⟩ := C55_catches_up ho hb h1
    refine ⟨t, Steps.trans h1 ht.steps, hidt, by rw [hrec]; simp [hlen], ?_, fun n => by rw [ht.frame.2.1]; exact hsent n⟩
    obtain ⟨g', hi'⟩ := inv_steps ho hb (inv_start outs h nf0 buf0) (Steps.trans h1 ht.steps)
    have o := hi'.order 0 ho
    have : t.sent 0 = [] := by rw [ht.frame.2.1]; exact hsent 0
    rw [this] at o
    have h0 : ([] : List (D × Nat)).length = 0 := rfl
    rw [hi'.rdt]
    omega

/-- The card of output `n` can send all that it was told to send. -/
theorem sends_all (ho : 0 < outs) (hb : Bounded outs h) (n : Nat) (hn : n < outs) (j : Nat) :
    ∀ s : St σ D, Steps outs h (start nf0 buf0) s → Stalled s → (s.tdt n + 256 - s.tdh n) % 256 = j →
      ∃ t, Steps outs h s t ∧ t.tdt = s.tdt ∧ t.tdh n = t.tdt n ∧ (∀ m, m ≠ n → t.tdh m = s.tdh m) ∧ t.heads = s.heads := by
  induction j with
  | zero =>
    intro s hs _ hj
    obtain ⟨g, hi⟩ := inv_steps ho hb (inv_start outs h nf0 buf0) hs
    have := hi.tdh n hn
    have := hi.tdt n hn
    exact ⟨s, .refl, rfl, by omega, fun _ _ => rfl, rfl⟩
  | succ j ih =>
    intro s hs hst hj
    obtain ⟨g, hi⟩ := inv_steps ho hb (inv_start outs h nf0 buf0) hs
    have h1 := hi.tdh n hn
    have h2 := hi.tdt n hn
    have hne : s.tdh n ≠ s.tdt n := by omega
    have h3 : Step outs h s _ := .send s n hn hne
    obtain ⟨t, ht, e1, e2, e3, e4⟩ := ih _ (hs.step h3) (stalled_step hst h3).1 (by
      simp only [upd_same]
      show (s.tdt n + 256 - (s.tdh n + 1) % 256) % 256 = j
      omega)
    exact ⟨t, Steps.trans (.step .refl h3) ht, e1, e2, fun m hm => (e3 m hm).trans (upd_other _ _ _ _ hm), e4⟩

theorem all_send (ho : 0 < outs) (hb : Bounded outs h) (k : Nat) (hk : k ≤ outs) (s : St σ D)
    (hs : Steps outs h (start nf0 buf0) s) (hst : Stalled s) :
    ∃ t, Steps outs h s t ∧ ∀ n < k, t.tdh n = t.tdt n := by
  induction k with
  | zero => exact ⟨s, .refl, fun n hn => by omega⟩
  | succ k ih =>
    obtain ⟨t, ht, hall⟩ := ih (by omega)
    obtain ⟨u, hu, e1, e2, e3, -⟩ := sends_all ho hb k (by omega) _ t (Steps.trans hs ht) (stalled_steps hst ht).1 rfl
    refine ⟨u, Steps.trans ht hu, fun n hn => ?_⟩
    by_cases h0 : n = k
    · subst h0; exact e2
    · rw [e3 n h0, e1]; exact hall n (by omega)

theorem all_report (k : Nat) (hk : k ≤ outs) (s : St σ D) :
    ∃ t, Steps outs h s t ∧ t.tdh = s.tdh ∧ t.tdt = s.tdt ∧ ∀ n < k, t.heads n = t.reported n := by
  induction k with
  | zero => exact ⟨s, .refl, rfl, rfl, fun n hn => by omega⟩
  | succ k ih =>
    obtain ⟨t, ht, e1, e2, hall⟩ := ih (by omega)
    refine ⟨_, ht.step (.writeBack t k (by omega)), e1, e2, fun n hn => ?_⟩
    by_cases h0 : n = k
    · subst h0; exact upd_same _ _ _
    · exact (upd_other _ _ _ _ h0).trans (hall n (by omega))

/-- C55 does not hold. With any network function, there is a run after which the driver never
receives a packet again: all cards have sent everything and have reported that, but the
driver only looks at what they report after every 64th packet, which cannot come. -/
theorem C55_stalls (ho : 0 < outs) (hb : Bounded outs h) (nf0 : σ) (buf0 : Nat → D) :
    ∃ s, Steps outs h (start nf0 buf0) s ∧
      (∀ n < outs, s.sent n = (handleAll h nf0 s.received).2.map fun o => (o.1, o.2 n)) ∧
      (∀ n < outs, s.heads n = s.reported n) ∧
      ∀ t, Steps outs h s t → t.received = s.received ∧ t.rdh = t.rdt := by
  obtain ⟨s, hs, hid, hlen, hrdt, -⟩ := fills_up ho hb nf0 buf0 255 (Nat.le_refl _)
  obtain ⟨g, hi⟩ := inv_steps ho hb (inv_start outs h nf0 buf0) hs
  have hst : Stalled s := ⟨hid, by rw [hi.rdh, hlen, hrdt]⟩
  obtain ⟨t, ht, hall⟩ := all_send ho hb outs (Nat.le_refl _) s hs hst
  obtain ⟨u, hu, e1, e2, hrep⟩ := all_report (outs := outs) (h := h) outs (Nat.le_refl _) t
  have hsu := Steps.trans hs (Steps.trans ht hu)
  have hstu := (stalled_steps hst (Steps.trans ht hu)).1
  refine ⟨u, hsu, fun n hn => ?_, hrep, fun v hv => ?_⟩
  · exact C54_nothing_lost ho hb hsu hstu.1.1 hstu.1.2 n hn (by rw [e1, e2]; exact hall n hn)
  · obtain ⟨a, b⟩ := stalled_steps hstu hv
    exact ⟨b, a.2⟩

/-- The agent is looking at the reported heads. -/
def recycling : Pc → Bool
  | .readHead .. => true
  | .writeTail .. => true
  | _ => false

/-- How the counters behind the indices change. -/
theorem step_track {t : St σ D} {g : Ghost} (ho : 0 < outs) (hb : Bounded outs h) (hi : Inv outs h nf0 s g)
    (h1 : Step outs h s t) : ∃ g', Inv outs h nf0 t g' ∧
      ((g'.P = g.P ∧ g'.E = g.E ∧ recycling t.pc = recycling s.pc ∧
         ∀ fc e, s.pc = .writeTail fc e → t.pc = .writeTail fc e) ∨
       (g'.P = g.P + 1 ∧ g'.E = g.E ∧ recycling s.pc = false ∧ recycling t.pc = decide (g.P % 64 = 63)) ∨
       (∃ fc e, s.pc = .writeTail fc e ∧ g'.P = g.P ∧ e = g'.E % 256 ∧ g'.E < g.P ∧ g.P ≤ g'.E + 255 ∧
         g.P % 64 = 0 ∧ recycling t.pc = false)) := by
  cases h1 with
  | agent =>
    cases hpc : s.pc with
    | poll fc =>
      refine ⟨g, inv_poll hi fc hpc, .inl ⟨rfl, rfl, ?_, nofun⟩⟩
      unfold agentStep; rw [hpc]; dsimp only; (repeat' split) <;> rfl
    | handle fc len =>
      refine ⟨g, inv_handle hi ho fc len hpc, .inl ⟨rfl, rfl, ?_, nofun⟩⟩
      unfold agentStep; rw [hpc]; rfl
    | writeDesc fc n rs =>
      refine ⟨g, inv_writeDesc hi fc n rs hpc, .inl ⟨rfl, rfl, ?_, nofun⟩⟩
      unfold agentStep; rw [hpc]; dsimp only; split <;> rfl
    | advance fc rs =>
      refine ⟨_, inv_advance hb ho hi fc rs hpc, .inr (.inl ⟨rfl, rfl, rfl, ?_⟩)⟩
      have hp := hi.pcOk
      unfold PcOk at hp
      rw [hpc] at hp
      rw [← hp.2.2.1]
      unfold agentStep; rw [hpc]; dsimp only; cases rs <;> rfl
    | readHead fc n e d =>
      refine ⟨g, inv_readHead hi ho fc n e d hpc, .inl ⟨rfl, rfl, ?_, nofun⟩⟩
      unfold agentStep; rw [hpc]; dsimp only; (repeat' split) <;> rfl
    | writeTail fc e =>
      have hp := hi.pcOk
      unfold PcOk at hp
      rw [hpc] at hp
      obtain ⟨m, -, h2, h3, h4, h'⟩ := inv_writeTail hi ho fc e hpc
      refine ⟨_, h', .inr (.inr ⟨fc, e, rfl, rfl, h3, h2, h4, hp.2.2.2.1, ?_⟩)⟩
      unfold agentStep; rw [hpc]; rfl
    | flush n =>
      obtain ⟨g', h', hP, hE⟩ := inv_flush hi n hpc
      refine ⟨g', h', .inl ⟨hP, hE, ?_, nofun⟩⟩
      unfold agentStep; rw [hpc]; dsimp only; split <;> rfl
  | fill d hne => exact ⟨g, inv_fill hi ho d hne, .inl ⟨rfl, rfl, rfl, fun _ _ => id⟩⟩
  | complete m hne hm => exact ⟨g, inv_complete hi ho m hne hm, .inl ⟨rfl, rfl, rfl, fun _ _ => id⟩⟩
  | send n hn hne =>
    obtain ⟨g', h', hP, hE⟩ := inv_send hb hi n hn hne
    exact ⟨g', h', .inl ⟨hP, hE, rfl, fun _ _ => id⟩⟩
  | writeBack n hn =>
    obtain ⟨g', h', hP, hE⟩ := inv_writeBack hi n hn
    exact ⟨g', h', .inl ⟨hP, hE, rfl, fun _ _ => id⟩⟩

/-- Steps of the system where, each time the agent writes the receive tail, the earliest head
it has read is less than 192 slots behind. -/
inductive Timely (outs : Nat) (h : Handler σ D) (s : St σ D) : St σ D → Prop
  | refl : Timely outs h s s
  | step {t u : St σ D} : Timely outs h s t → Step outs h t u →
      (∀ fc e, t.pc = .writeTail fc e → (t.pd + 256 - e) % 256 < 192) → Timely outs h s u

theorem timely_inv (ho : 0 < outs) (hb : Bounded outs h) (hs : Timely outs h (start nf0 buf0) s) :
    ∃ g, Inv outs h nf0 s g ∧ if recycling s.pc then g.P ≤ g.E + 255 else g.P / 64 * 64 + 64 ≤ g.E + 255 := by
  induction hs with
  | refl => exact ⟨_, inv_start outs h nf0 buf0, by simp [recycling, start]⟩
  | @step t u _ h1 h2 ih =>
    obtain ⟨g, hi, hg⟩ := ih
    obtain ⟨g', hi', hc⟩ := step_track ho hb hi h1
    refine ⟨g', hi', ?_⟩
    rcases hc with ⟨a, b, c, -⟩ | ⟨a, b, c, d⟩ | ⟨fc, e, a, b, c, d, i, j, k⟩
    · rw [a, b, c]; exact hg
    · rw [c] at hg
      rw [d, a, b]
      simp only [Bool.false_eq_true, if_false] at hg
      split
      · omega
      · rename_i h63
        have : ¬ g.P % 64 = 63 := by simpa using h63
        omega
    · have := h2 fc e a
      have := hi.pd
      rw [k]
      simp only [Bool.false_eq_true, if_false]
      omega

/-- As long as the reported heads are not too far behind when the driver looks at them, the
input card has a descriptor to receive into whenever the agent waits for a packet. Missing
for C55: the heads may be too far behind, see `C55_stalls` and `C55_late_is_final`. -/
theorem C55_keeps_receiving_partial (ho : 0 < outs) (hb : Bounded outs h) (hs : Timely outs h (start nf0 buf0) s)
    (hid : Idle s) : s.rdh ≠ s.rdt := by
  obtain ⟨g, hi, hg⟩ := timely_inv ho hb hs
  rw [hid.1] at hg
  simp only [recycling, Bool.false_eq_true, if_false] at hg
  have o := hi.order 0 ho
  have h1 := hi.rdh
  have h2 := hi.rdt
  have : ¬ g.P < s.received.length := by
    intro hlt
    have := (hi.done_iff (by rw [hid.1]; rfl)).2 hlt
    rw [hid.2] at this
    cases this
  omega

/-- If the reported heads are too far behind once, fewer than 64 further packets are ever
received, whatever the cards send and report afterwards. -/
theorem C55_late_is_final {t : St σ D} (ho : 0 < outs) (hb : Bounded outs h) (hs : Steps outs h (start nf0 buf0) s)
    (fc e : Nat) (hpc : s.pc = .writeTail fc e) (hlate : 192 ≤ (s.pd + 256 - e) % 256) (ht : Steps outs h s t) :
    t.received.length < s.received.length + 64 := by
  obtain ⟨g, hi⟩ := inv_steps ho hb (inv_start outs h nf0 buf0) hs
  have key : ∃ g', Inv outs h nf0 t g' ∧ ((t.pc = s.pc ∧ g'.P = g.P ∧ g'.E = g.E) ∨
      (recycling t.pc = false ∧ g'.E + 255 < g'.P / 64 * 64 + 64 ∧ g'.E + 255 < g.P + 64)) := by
    induction ht with
    | refl => exact ⟨g, hi, .inl ⟨rfl, rfl, rfl⟩⟩
    | @step u v _ h1 ih =>
      obtain ⟨g1, hi1, hc1⟩ := ih
      obtain ⟨g2, hi2, hc2⟩ := step_track ho hb hi1 h1
      refine ⟨g2, hi2, ?_⟩
      have hpd := hi.pd
      rcases hc1 with ⟨p1, p2, p3⟩ | ⟨p1, p2, p3⟩
      · rcases hc2 with ⟨a, b, c, d⟩ | ⟨a, b, c, -⟩ | ⟨fc', e', a, b, c, d, i, j, k⟩
        · exact .inl ⟨by rw [hpc]; exact d fc e (by rw [p1, hpc]), by omega, by omega⟩
        · rw [p1, hpc] at c; cases c
        · rw [p1, hpc] at a
          cases a
          exact .inr ⟨k, by omega, by omega⟩
      · rcases hc2 with ⟨a, b, c, -⟩ | ⟨a, b, c, d⟩ | ⟨fc', e', a, -⟩
        · exact .inr ⟨c.trans p1, by omega, by omega⟩
        · have := hi2.le
          have := hi2.room
          have h63 : ¬ g1.P % 64 = 63 := by omega
          exact .inr ⟨by rw [d]; simpa using h63, by omega, by omega⟩
        · rw [a] at p1; cases p1
  obtain ⟨g', hi', hc⟩ := key
  have := hi'.room
  have o := hi.order 0 ho
  have hpd := hi.pd
  rcases hc with ⟨-, p2, p3⟩ | ⟨-, -, p3⟩
  · have hp := hi.pcOk
    unfold PcOk at hp
    rw [hpc] at hp
    obtain ⟨-, -, -, -, -, m, h1, h2, h3, -⟩ := hp
    omega
  · omega

/-! What the cards report, and that the driver goes on if they report in time. -/

/-- What the card of an output has to report is the last multiple of 64 packets that it has
sent, as an index into the ring. -/
theorem C55_reported (ho : 0 < outs) (hb : Bounded outs h) (hs : Steps outs h (start nf0 buf0) s) (n : Nat) :
    s.reported n = (s.sent n).length / 64 * 64 % 256 := by
  induction hs with
  | refl => simp [start]
  | @step t u h0 h1 ih =>
    cases h1 with
    | agent =>
      have e1 : (agentStep outs h t).reported = t.reported := by
        unfold agentStep
        cases t.pc <;> dsimp only <;> (repeat' split) <;> rfl
      rw [e1, (agent_frame t).2.1]
      exact ih
    | fill d hne => exact ih
    | complete m hne hm => exact ih
    | writeBack j hj => exact ih
    | send j hj hne =>
      obtain ⟨g, hi⟩ := inv_steps ho hb (inv_start outs h nf0 buf0) h0
      have o := hi.order j hj
      have h1 := hi.tdh j hj
      have h2 := hi.tdt j hj
      have hlt : (t.sent j).length < g.T j := by
        rcases Nat.lt_or_ge (t.sent j).length (g.T j) with h' | h'
        · exact h'
        · exfalso; apply hne; rw [h1, h2]; congr 1; omega
      obtain ⟨r, hr1, hr3, -⟩ := hi.tx j hj _ (Nat.le_refl _) (by omega)
      rw [← h1] at hr3
      have hlen : r.2 j < 2 ^ 16 := results_bounded hb nf0 _ hi.small _ _ hr1 j hj
      have hbit : (t.ring j (t.tdh j)).getLsbD 27 = decide ((t.sent j).length % 64 = 63) := by
        rw [hr3, txMeta_rs _ _ hlen]
      dsimp only
      rw [hbit]
      by_cases hjn : n = j
      · subst hjn
        by_cases h63 : (t.sent n).length % 64 = 63
        · simp only [h63, decide_true, if_true, upd_same, List.length_append, List.length_singleton]
          rw [h1]
          show ((t.sent n).length % 256 + 1) % 256 = _
          omega
        · simp only [h63, decide_false, Bool.false_eq_true, if_false, upd_same, List.length_append, List.length_singleton]
          rw [ih]
          have : ((t.sent n).length + 1) / 64 = (t.sent n).length / 64 := by omega
          rw [this]
      · rw [upd_other _ _ _ _ hjn]
        split
        · rw [upd_other _ _ _ _ hjn]; exact ih
        · exact ih

theorem Timely.steps {t : St σ D} (h1 : Timely outs h s t) : Steps outs h s t := by
  induction h1 with
  | refl => exact .refl
  | step _ h2 _ ih => exact ih.step h2

/-- The card of output `n` can send all that it was told to send while the agent waits. -/
theorem timely_sends (ho : 0 < outs) (hb : Bounded outs h) (n : Nat) (hn : n < outs) (j : Nat) :
    ∀ s : St σ D, Timely outs h (start nf0 buf0) s → Idle s → (s.tdt n + 256 - s.tdh n) % 256 = j →
      ∃ t, Timely outs h (start nf0 buf0) t ∧ Idle t ∧ t.received = s.received ∧ t.tdt = s.tdt ∧ t.tdh n = t.tdt n ∧
        ∀ m, m ≠ n → t.tdh m = s.tdh m := by
  induction j with
  | zero =>
    intro s hs hid hj
    obtain ⟨g, hi⟩ := inv_steps ho hb (inv_start outs h nf0 buf0) hs.steps
    have := hi.tdh n hn
    have := hi.tdt n hn
    exact ⟨s, hs, hid, rfl, rfl, by omega, fun _ _ => rfl⟩
  | succ j ih =>
    intro s hs hid hj
    obtain ⟨g, hi⟩ := inv_steps ho hb (inv_start outs h nf0 buf0) hs.steps
    have h1 := hi.tdh n hn
    have h2 := hi.tdt n hn
    have hne : s.tdh n ≠ s.tdt n := by omega
    have h3 : Step outs h s _ := .send s n hn hne
    obtain ⟨t, ht, e0, e4, e1, e2, e3⟩ := ih _ (hs.step h3 (fun fc e hc => by rw [hid.1] at hc; cases hc)) hid (by
      simp only [upd_same]
      show (s.tdt n + 256 - (s.tdh n + 1) % 256) % 256 = j
      omega)
    exact ⟨t, ht, e0, e4, e1, e2, fun m hm => (e3 m hm).trans (upd_other _ _ _ _ hm)⟩

/-- All cards can send and report everything while the agent waits. -/
theorem timely_clears (ho : 0 < outs) (hb : Bounded outs h) (hs : Timely outs h (start nf0 buf0) s) (hid : Idle s) :
    ∃ t, Timely outs h (start nf0 buf0) t ∧ Idle t ∧ t.received = s.received ∧ (∀ n < outs, t.tdh n = t.tdt n) ∧
      ∀ n < outs, t.heads n = t.reported n := by
  have h1 : ∀ k ≤ outs, ∃ t, Timely outs h (start nf0 buf0) t ∧ Idle t ∧ t.received = s.received ∧
      ∀ n < k, t.tdh n = t.tdt n := by
    intro k
    induction k with
    | zero => exact fun _ => ⟨s, hs, hid, rfl, fun n hn => by omega⟩
    | succ k ih =>
      intro hk
      obtain ⟨t, ht, hidt, hr, hall⟩ := ih (by omega)
      obtain ⟨u, hu, hidu, hru, e1, e2, e3⟩ := timely_sends ho hb k (by omega) _ t ht hidt rfl
      refine ⟨u, hu, hidu, hru.trans hr, fun n hn => ?_⟩
      by_cases h0 : n = k
      · subst h0; exact e2
      · rw [e3 n h0, e1]; exact hall n (by omega)
  obtain ⟨t, ht, hidt, hr, hall⟩ := h1 outs (Nat.le_refl _)
  have h2 : ∀ k ≤ outs, ∃ u, Timely outs h (start nf0 buf0) u ∧ Idle u ∧ u.received = s.received ∧
      u.tdh = t.tdh ∧ u.tdt = t.tdt ∧ ∀ n < k, u.heads n = u.reported n := by
    intro k
    induction k with
    | zero => exact fun _ => ⟨t, ht, hidt, hr, rfl, rfl, fun n hn => by omega⟩
    | succ k ih =>
      intro hk
      obtain ⟨u, hu, hidu, hru, e1, e2, e3⟩ := ih (by omega)
      refine ⟨_, hu.step (.writeBack u k (by omega)) (fun fc e hc => by rw [hidu.1] at hc; cases hc), hidu, hru, e1, e2,
        fun n hn => ?_⟩
      by_cases h0 : n = k
      · subst h0; exact upd_same _ _ _
      · exact (upd_other _ _ _ _ h0).trans (e3 n (by omega))
  obtain ⟨u, hu, hidu, hru, e1, e2, e3⟩ := h2 outs (Nat.le_refl _)
  exact ⟨u, hu, hidu, hru, fun n hn => by rw [e1, e2]; exact hall n hn, e3⟩

/-- The next packet has arrived. -/
def arrived (s : St σ D) (d : D) (m : BitVec 64) : St σ D :=
  { s with
    buf := upd s.buf s.rdh d
    ring := upd s.ring 0 (upd (s.ring 0) s.rdh m)
    rdh := (s.rdh + 1) % ringSize
    received := s.received ++ [(d, lenOf m)] }

/-- If all cards have sent and reported everything when a packet arrives at an agent that waits,
then the driver handles the packet, waits again, and the heads it has read, if it has read
them, were not too far behind: the run stays one of those where the driver receives. Missing
for C55: see `C55_stalls`. -/
theorem C55_prompt_partial (ho : 0 < outs) (hb : Bounded outs h) (hs : Timely outs h (start nf0 buf0) s) (hid : Idle s)
    (hsent : ∀ n < outs, s.tdh n = s.tdt n) (hrep : ∀ n < outs, s.heads n = s.reported n) (d : D) (m : BitVec 64)
    (hm : done m = true) :
    Timely outs h (start nf0 buf0) (arrived s d m) ∧
      (∀ t, Alone outs h (arrived s d m) t → Timely outs h (start nf0 buf0) t) ∧
      ∃ t, Alone outs h (arrived s d m) t ∧ Idle t ∧ t.received = s.received ++ [(d, lenOf m)] := by
  have hne := C55_keeps_receiving_partial ho hb hs hid
  have hidle : ∀ fc e, s.pc ≠ .writeTail fc e := fun fc e hc => by rw [hid.1] at hc; cases hc
  have hall := fun n hn => C54_nothing_lost ho hb hs.steps hid.1 hid.2 n hn (hsent n hn)
  have hlen : ∀ n < outs, (s.sent n).length = s.received.length := by
    intro n hn
    rw [hall n hn]
    simp [handleAll_length]
  have harr : Timely outs h (start nf0 buf0) (arrived s d m) := by
    have h1 := hs.step (.fill s d hne) (fun fc e hc => absurd hc (hidle fc e))
    have h2 := h1.step (.complete _ m (by exact hne) hm) (fun fc e hc => absurd hc (hidle fc e))
    have e : arrived s d m = _ := rfl
    unfold arrived at e
    refine Eq.mp ?_ h2
    unfold arrived
    simp only [upd_same]
  have hheads : ∀ n < outs, (arrived s d m).heads n = s.received.length / 64 * 64 % 256 := by
    intro n hn
    show s.heads n = _
    rw [hrep n hn, C55_reported ho hb hs.steps n, hlen n hn]
  have key : ∀ t, Alone outs h (arrived s d m) t → Timely outs h (start nf0 buf0) t ∧
      (∀ n < outs, t.heads n = s.received.length / 64 * 64 % 256) ∧
      (∀ fc n e dd, t.pc = .readHead fc n e dd →
        (n = 0 → dd = 2 ^ 64 - 1) ∧ (0 < n → e = s.received.length / 64 * 64 % 256)) ∧
      ∀ fc e, t.pc = .writeTail fc e → e = s.received.length / 64 * 64 % 256 := by
    intro t ht
    induction ht with
    | refl =>
      refine ⟨harr, hheads, fun fc n e dd hc => ?_, fun fc e hc => absurd hc (hidle fc e)⟩
      have : s.pc = _ := hc
      rw [hid.1] at this
      cases this
    | @step t ht ih =>
      obtain ⟨i1, i2, i3, i4⟩ := ih
      obtain ⟨g, hi⟩ := inv_steps ho hb (inv_start outs h nf0 buf0) i1.steps
      have hfr := ht.frame
      have hr : t.received.length = s.received.length + 1 := by
        rw [hfr.1]; show (s.received ++ [(d, lenOf m)]).length = _; simp
      have hst : ∀ n < outs, (t.sent n).length = s.received.length := by
        intro n hn
        rw [hfr.2.1]
        exact hlen n hn
      refine ⟨i1.step (.agent t) (fun fc e hc => ?_), ?_, ?_, ?_⟩
      · have he := i4 fc e hc
        have hp := hi.pcOk
        unfold PcOk at hp
        rw [hc] at hp
        obtain ⟨-, -, h0, h64, hT, -⟩ := hp
        have hT0 := hT 0 ho
        have o := hi.order 0 ho
        have := hst 0 ho
        have := hi.le
        have := hi.pd
        omega
      · intro n hn
        rw [show (agentStep outs h t).heads = t.heads by
          unfold agentStep; cases t.pc <;> dsimp only <;> (repeat' split) <;> rfl]
        exact i2 n hn
      · intro fc n e dd hc
        unfold agentStep at hc
        cases hpc : t.pc with
        | readHead fc' n' e' d' =>
          rw [hpc] at hc
          dsimp only at hc
          obtain ⟨j1, j2⟩ := i3 _ _ _ _ hpc
          split at hc
          · rename_i hn'
            split at hc
            · cases hc
              exact ⟨fun h0 => by omega, fun _ => i2 n' hn'⟩
            · rename_i hd
              cases hc
              refine ⟨fun h0 => by omega, fun _ => ?_⟩
              rcases Nat.eq_zero_or_pos n' with h0 | h0
              · exfalso
                apply hd
                rw [j1 h0]
                have := Nat.mod_lt (t.heads n' + 2 ^ 64 - t.pd) (show 0 < 2 ^ 64 by decide)
                omega
              · exact j2 h0
          · cases hc
        | advance fc' rs =>
          rw [hpc] at hc
          dsimp only at hc
          split at hc
          · cases hc; exact ⟨fun _ => rfl, fun h0 => by omega⟩
          · cases hc
        | poll fc' =>
          rw [hpc] at hc
          dsimp only at hc
          exfalso
          revert hc
          (repeat' split) <;> exact nofun
        | handle => rw [hpc] at hc; cases hc
        | writeDesc => rw [hpc] at hc; dsimp only at hc; exfalso; revert hc; split <;> exact nofun
        | writeTail => rw [hpc] at hc; cases hc
        | flush => rw [hpc] at hc; dsimp only at hc; exfalso; revert hc; split <;> exact nofun
      · intro fc e hc
        unfold agentStep at hc
        cases hpc : t.pc with
        | readHead fc' n' e' d' =>
          rw [hpc] at hc
          dsimp only at hc
          obtain ⟨-, j2⟩ := i3 _ _ _ _ hpc
          split at hc
          · exfalso; revert hc; split <;> exact nofun
          · cases hc
            exact j2 (by omega)
        | advance fc' rs => rw [hpc] at hc; dsimp only at hc; exfalso; revert hc; split <;> exact nofun
        | poll fc' =>
          rw [hpc] at hc
          dsimp only at hc
          exfalso
          revert hc
          (repeat' split) <;> exact nofun
        | handle => rw [hpc] at hc; cases hc
        | writeDesc => rw [hpc] at hc; dsimp only at hc; exfalso; revert hc; split <;> exact nofun
        | writeTail => rw [hpc] at hc; cases hc
        | flush => rw [hpc] at hc; dsimp only at hc; exfalso; revert hc; split <;> exact nofun
  obtain ⟨t, ht, hidt, hrt, -⟩ := C55_catches_up ho hb harr.steps
  exact ⟨harr, fun t ht => (key t ht).1, t, ht, hidt, hrt⟩

/-- So any packets at all can be received, one after the other. Missing for C55: see
`C55_stalls`. -/
theorem C55_any_packets_partial (ho : 0 < outs) (hb : Bounded outs h) (nf0 : σ) (buf0 : Nat → D) (l : List (D × Nat))
    (hl : ∀ p ∈ l, p.2 < 2 ^ 16) :
    ∃ s, Timely outs h (start nf0 buf0) s ∧ Idle s ∧ s.received = l := by
  suffices hrev : ∀ q : List (D × Nat), (∀ p ∈ q, p.2 < 2 ^ 16) →
      ∃ s, Timely outs h (start nf0 buf0) s ∧ Idle s ∧ s.received = q.reverse by
    have := hrev l.reverse (fun p hp => hl p (List.mem_reverse.1 hp))
    rwa [List.reverse_reverse] at this
  clear hl
  intro q hl
  induction q with
  | nil => exact ⟨_, .refl, ⟨rfl, by simp [start, done]⟩, rfl⟩
  | cons p q ih =>
    obtain ⟨s, hs, hid, hr⟩ := ih (fun q hq => hl q (by simp [hq]))
    obtain ⟨t, ht, hidt, hrt, h1, h2⟩ := timely_clears ho hb hs hid
    have hp : p.2 < 2 ^ 16 := hl p (by simp)
    have hm : p.2 % 2 ^ 64 = p.2 := Nat.mod_eq_of_lt (by omega)
    have hlen : lenOf (BitVec.ofNat 64 p.2 ||| 1#64 <<< 32) = p.2 := by
      unfold lenOf
      have hz : ∀ i < 16, Nat.testBit 4294967296 i = false := by decide
      apply Nat.eq_of_testBit_eq
      intro i
      rw [Nat.testBit_mod_two_pow]
      by_cases hi : i < 16
      · simp [hi, Nat.testBit_or, hm, hz i hi]
      · simp [hi, testBit_small p.2 i hp (by omega)]
    have hdone : done (BitVec.ofNat 64 p.2 ||| 1#64 <<< 32) = true := by simp [done]
    obtain ⟨-, h3, u, hu, hidu, hru⟩ := C55_prompt_partial ho hb ht hidt h1 h2 p.1 _ hdone
    refine ⟨u, h3 u hu, hidu, ?_⟩
    rw [hru, hlen, hrt, hr, List.reverse_cons]

/-! ### Examples -/

namespace IxgbeExample

/-- A network function that counts packets, adds the count to the packet, and sends it on
the second output only. -/
def count : Handler Nat Nat := fun nf d len _ => (nf + 1, d + nf, fun n => if n = 1 then len else 0)

theorem bounded : Bounded 2 count := by
  intro nf d len n hl _
  show (if n = 1 then len else 0) < 2 ^ 16
  split
  · exact hl
  · decide

/-- Steps of the agent. -/
def agents : Nat → St Nat Nat → St Nat Nat
  | 0, s => s
  | k + 1, s => agents k (agentStep 2 count s)

theorem agents_steps (k : Nat) (s t : St Nat Nat) (hs : Steps 2 count s t) : Steps 2 count s (agents k t) := by
  induction k generalizing t with
  | zero => exact hs
  | succ k ih => exact ih _ (hs.step (.agent t))

def s0 : St Nat Nat := start 5 fun _ => 0
def s1 : St Nat Nat := { s0 with buf := upd s0.buf s0.rdh 7 }
/-- A packet of 60 bytes has been received. -/
def s2 : St Nat Nat := { s1 with
  ring := upd s1.ring 0 (upd (s1.ring 0) s1.rdh 0x10000003c)
  rdh := (s1.rdh + 1) % ringSize
  received := s1.received ++ [(s1.buf s1.rdh, lenOf 0x10000003c)] }
/-- The agent has handled it. -/
def s3 : St Nat Nat := agents 11 s2
def s4 : St Nat Nat := { s3 with
  sent := upd s3.sent 1 (s3.sent 1 ++ [(s3.buf (s3.tdh 1), lenOf (s3.ring 1 (s3.tdh 1)))])
  tdh := upd s3.tdh 1 ((s3.tdh 1 + 1) % ringSize)
  reported := if (s3.ring 1 (s3.tdh 1)).getLsbD 27 then upd s3.reported 1 ((s3.tdh 1 + 1) % ringSize)
    else s3.reported }

theorem steps2 : Steps 2 count s0 s2 :=
  (Steps.refl.step (.fill s0 7 (by decide))).step (.complete s1 0x10000003c (by decide) (by decide))
theorem steps4 : Steps 2 count s0 s4 := (agents_steps 11 _ _ steps2).step (.send s3 1 (by decide) (by decide))

/-- The hypotheses of C54_exactly_once, C54_nothing_lost (for output 1), C54_state,
C54_buffers_apart and C54_in_bounds in a state where a packet was sent. -/
example : Steps 2 count (start 5 fun _ => 0) s4 ∧ s4.pc = .poll 0 ∧ done (s4.ring 0 s4.pd) = false ∧ s4.tdh 1 = s4.tdt 1 ∧
    s4.received = [(7, 60)] ∧ s4.sent 1 = [(12, 60)] ∧ s4.nf = 6 ∧ s4.pd = 1 :=
  ⟨steps4, rfl, by decide, by decide, by decide, by decide, by decide, by decide⟩

/-- For C54_buffers_apart: while the packet is handled, its slot is not the card's. -/
example : Steps 2 count (start 5 fun _ => 0) (agents 1 s2) ∧ (agents 1 s2).pc = .handle 0 60 ∧ (agents 1 s2).rdh = 1 :=
  ⟨agents_steps 1 _ _ steps2, rfl, by decide⟩

/-- The hypotheses of C55_catches_up, where there is something to catch up with. -/
example : Steps 2 count (start 5 fun _ => 0) s2 ∧ ¬ Idle s2 :=
  ⟨steps2, fun hid => by have := hid.2; revert this; decide⟩

/-- The hypotheses of C55_stalls. -/
example : 0 < 2 ∧ Bounded 2 count := ⟨by decide, bounded⟩

/-- The hypotheses of C55_keeps_receiving_partial after a packet. -/
example : ∃ s, Timely 2 count (start 5 fun _ => 0) s ∧ Idle s ∧ s.received.length = 1 := by
  have h0 : Timely 2 count s0 s1 := Timely.refl.step (.fill s0 7 (by decide)) (fun _ _ hc => nomatch hc)
  have h2 : Timely 2 count s0 s2 := h0.step (.complete s1 0x10000003c (by decide) (by decide)) (fun _ _ hc => nomatch hc)
  have hk : ∀ k ≤ 11, Timely 2 count s0 (agents k s2) := by
    intro k hk
    have hstep : ∀ k s, agents (k + 1) s = agentStep 2 count (agents k s) := by
      intro k
      induction k with
      | zero => intro s; rfl
      | succ k ih => intro s; exact ih (agentStep 2 count s)
    induction k with
    | zero => exact h2
    | succ k ih =>
      rw [hstep]
      refine (ih (by omega)).step (.agent _) ?_
      have hall : ∀ k < 11, recycling (agents k s2).pc = false := by decide
      intro fc e hc
      have := hall k (by omega)
      rw [hc] at this
      cases this
  exact ⟨_, hk 11 (Nat.le_refl _), ⟨rfl, by decide⟩, by decide⟩

/-- The hypotheses of C55_reported, where the 64th packet was sent: what is reported is not
what was reported at the start. -/
example : ∃ s, Steps 2 count (start 5 fun _ => 0) s ∧ s.reported 1 = 64 := by
  obtain ⟨s, hs, hid, hr⟩ := C55_any_packets_partial (by decide) bounded 5 (fun _ => 0) (List.replicate 64 (7, 60))
    (fun p hp => by rw [List.eq_of_mem_replicate hp]; decide)
  obtain ⟨t, ht, hidt, hrt, h1, -⟩ := timely_clears (by decide) bounded hs hid
  refine ⟨t, ht.steps, ?_⟩
  rw [C55_reported (by decide) bounded ht.steps,
    C54_nothing_lost (by decide) bounded ht.steps hidt.1 hidt.2 1 (by decide) (h1 1 (by decide))]
  simp [handleAll_length, hrt, hr]

/-- The hypotheses of C55_prompt_partial after 63 packets, so that the next makes the driver
look at the heads. -/
example : ∃ s, Timely 2 count (start 5 fun _ => 0) s ∧ Idle s ∧ (∀ n < 2, s.tdh n = s.tdt n) ∧
    (∀ n < 2, s.heads n = s.reported n) ∧ s.received.length = 63 ∧ done (1#64 <<< 32) = true := by
  obtain ⟨s, hs, hid, hr⟩ := C55_any_packets_partial (by decide) bounded 5 (fun _ => 0) (List.replicate 63 (7, 60))
    (fun p hp => by rw [List.eq_of_mem_replicate hp]; decide)
  obtain ⟨t, ht, hidt, hrt, h1, h2⟩ := timely_clears (by decide) bounded hs hid
  exact ⟨t, ht, hidt, h1, h2, by rw [hrt, hr]; simp, by decide⟩

/-- The hypotheses of C55_any_packets_partial, with more packets than the ring has slots. -/
example : ∀ p ∈ List.replicate 1000 (7, 60), p.2 < 2 ^ 16 := fun p hp => by rw [List.eq_of_mem_replicate hp]; decide

/-- The hypotheses of C55_late_is_final: else C55_stalls would contradict
C55_keeps_receiving_partial. -/
example : ∃ s fc e, Steps 2 count (start 5 fun _ => 0) s ∧ s.pc = .writeTail fc e ∧ 192 ≤ (s.pd + 256 - e) % 256 := by
  by_contra hno
  have htimely : ∀ t, Steps 2 count (start 5 fun _ => 0) t → Timely 2 count (start 5 fun _ => 0) t := by
    intro t ht
    induction ht with
    | refl => exact .refl
    | @step u v h1 h2 ih =>
      refine ih.step h2 fun fc e hc => ?_
      by_contra hlt
      exact hno ⟨u, fc, e, h1, hc, by omega⟩
  obtain ⟨s, hs, hid, hlen, hrdt, -⟩ := fills_up (by decide) bounded 5 (fun _ => 0) 255 (Nat.le_refl _)
  obtain ⟨g, hi⟩ := inv_steps (by decide) bounded (inv_start 2 count 5 fun _ => 0) hs
  exact C55_keeps_receiving_partial (by decide) bounded (htimely s hs) hid (by rw [hi.rdh, hlen, hrdt])

end IxgbeExample

end Verif.Props
