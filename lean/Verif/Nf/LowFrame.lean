/- The network functions of Verif.Nf.Low write only to their own memory. -/
import Verif.Nf.Low

set_option autoImplicit false

namespace Verif.Nf.Low
open Verif.IndexPool

/-- The bytes outside the packet buffer, the local variable and the array of keys agree. -/
def Frame (l : Layout) (m m' : Mem) : Prop :=
  ∀ a, (a < l.pkt ∨ l.pkt + 2048 ≤ a) → (a < l.loc ∨ l.loc + 16 ≤ a) →
    (a < l.keys ∨ l.keys + l.ks * l.size ≤ a) → m' a = m a

variable {l : Layout} {m m' m'' : Mem} {s s' : State}

theorem Frame.refl (l : Layout) (m : Mem) : Frame l m m := fun _ _ _ _ => rfl

theorem Frame.trans (h : Frame l m m') (h' : Frame l m' m'') : Frame l m m'' :=
  fun a h1 h2 h3 => (h' a h1 h2 h3).trans (h a h1 h2 h3)

theorem receive_frame (l : Layout) (s : State) (p : Packet) : Frame l s.mem (receive l s p).mem := by
  intro a h1 _ _
  simp only [receive, store, bufferSize]
  rw [if_neg (by omega)]

theorem putFlow_frame (l : Layout) (s : State) (f : Flow) : Frame l s.mem (putFlow l s f).mem := by
  intro a _ h2 _
  simp only [putFlow, store]
  rw [if_neg (by omega)]

theorem assign_frame {i kp : Nat} (h : assign l m i kp = some m') : Frame l m m' := by
  unfold assign at h
  split at h
  · cases h
    intro a _ _ h3
    unfold store
    beta_reduce
    rw [if_neg]
    unfold Layout.cell
    have : l.ks * (i + 1) ≤ l.ks * l.size := Nat.mul_le_mul_left _ (by omega)
    rw [Nat.mul_add] at this
    omega
  · cases h

theorem refresh_frame {time i : Nat} (h : refresh s time i = some s') : Frame l s.mem s'.mem := by
  unfold refresh at h
  simp only [Option.bind_eq_bind, Option.bind_eq_some_iff] at h
  obtain ⟨_, _, h⟩ := h
  cases h
  exact Frame.refl l s.mem

theorem drop_frame {i : Nat} (h : drop l s i = some s') : Frame l s.mem s'.mem := by
  unfold drop at h
  simp only [Option.bind_eq_bind, Option.bind_eq_some_iff] at h
  obtain ⟨_, _, _, _, h⟩ := h
  cases h
  exact Frame.refl l s.mem

theorem insert_frame {time kp : Nat} {r : Option Nat} (h : insert l s time kp = some (s', r)) : Frame l s.mem s'.mem := by
  unfold insert at h
  simp only [Option.bind_eq_bind, Option.bind_eq_some_iff] at h
  obtain ⟨⟨pool, x⟩, _, h⟩ := h
  split at h
  · cases h; exact Frame.refl l s.mem
  · simp only [Option.bind_eq_some_iff] at h
    obtain ⟨_, _, _, ha, _, _, h⟩ := h
    cases h
    exact assign_frame ha

/-- Memory does not change. -/
theorem hasExternal_frame {time kp : Nat} {b : Bool} (h : Firewall.hasExternal s time kp = some (s', b)) :
    Frame l s.mem s'.mem := by
  unfold Firewall.hasExternal at h
  simp only [Option.bind_eq_bind, Option.bind_eq_some_iff] at h
  obtain ⟨_, _, h⟩ := h
  split at h
  · simp only [Option.bind_eq_some_iff] at h
    obtain ⟨b, _, h⟩ := h
    split at h
    · simp only [Option.bind_eq_some_iff] at h
      obtain ⟨_, h1, h⟩ := h
      cases h
      exact refresh_frame h1
    · cases h; exact Frame.refl l s.mem
  · cases h; exact Frame.refl l s.mem

theorem learnInternal_frame {time kp : Nat} (h : Firewall.learnInternal l s time kp = some s') :
    Frame l s.mem s'.mem := by
  unfold Firewall.learnInternal at h
  simp only [Option.bind_eq_bind, Option.bind_eq_some_iff] at h
  obtain ⟨_, _, h⟩ := h
  split at h
  · exact refresh_frame h
  · simp only [Option.bind_eq_some_iff] at h
    obtain ⟨⟨s1, r⟩, h1, h⟩ := h
    cases h
    exact insert_frame h1

theorem firewall_frame {ext : Nat} {p : Packet} {o : List Out} (h : Firewall.handle l ext s p = some (s', o)) :
    Frame l s.mem s'.mem := by
  have r := receive_frame l s p
  have q := putFlow_frame l (receive l s p)
  unfold Firewall.handle at h
  simp only [Option.bind_eq_bind] at h
  split at h
  · cases h; exact r
  split at h
  · cases h; exact r
  split at h
  · simp only [Option.bind_eq_some_iff] at h
    obtain ⟨⟨s1, b⟩, h1, h⟩ := h
    have h2 := hasExternal_frame (l := l) h1
    have e : s1 = s' := by
      dsimp only at h
      split at h <;> cases h <;> rfl
    subst e
    exact r.trans ((q _).trans h2)
  · simp only [Option.bind_eq_some_iff] at h
    obtain ⟨s1, h1, h⟩ := h
    cases h
    exact r.trans ((q _).trans (learnInternal_frame h1))

theorem getInternal_frame {start time kp : Nat} {o : Option Nat} (h : NatNf.getInternal l start s time kp = some (s', o)) :
    Frame l s.mem s'.mem := by
  unfold NatNf.getInternal at h
  simp only [Option.bind_eq_bind, Option.bind_eq_some_iff] at h
  obtain ⟨_, _, h⟩ := h
  split at h
  · simp only [Option.bind_eq_some_iff] at h
    obtain ⟨_, h1, h⟩ := h
    cases h
    exact refresh_frame h1
  · simp only [Option.bind_eq_some_iff] at h
    obtain ⟨⟨s1, r⟩, h1, h⟩ := h
    have h2 := insert_frame h1
    split at h <;> (rename_i e; cases e; cases h; exact h2)

theorem getExternal_frame {start time port : Nat} {o : Option Flow}
    (h : NatNf.getExternal l start s time port = some (s', o)) : Frame l s.mem s'.mem := by
  unfold NatNf.getExternal at h
  simp only [Option.bind_eq_bind, Option.bind_eq_some_iff] at h
  obtain ⟨_, _, h⟩ := h
  split at h
  · simp only [Option.bind_eq_some_iff] at h
    obtain ⟨_, h1, h⟩ := h
    split at h
    · cases h; exact refresh_frame h1
    · cases h
  · cases h; exact Frame.refl l s.mem

theorem nat_frame {c : Nf.NatNf.Config} {p : Packet} {o : List Out} (h : NatNf.handle l c s p = some (s', o)) :
    Frame l s.mem s'.mem := by
  have r := receive_frame l s p
  have q := putFlow_frame l (receive l s p)
  unfold NatNf.handle at h
  simp only [Option.bind_eq_bind] at h
  split at h
  · cases h; exact r
  split at h
  · cases h; exact r
  split at h
  · simp only [Option.bind_eq_some_iff] at h
    obtain ⟨⟨s1, b⟩, h1, h⟩ := h
    have h2 := getExternal_frame h1
    have e : s1 = s' := by
      split at h
      · rename_i e; cases e; cases h; rfl
      · rename_i e; cases e
        split at h <;> cases h <;> rfl
    subst e
    exact r.trans h2
  · simp only [Option.bind_eq_some_iff] at h
    obtain ⟨⟨s1, b⟩, h1, h⟩ := h
    have h2 := getInternal_frame h1
    have e : s1 = s' := by split at h <;> (rename_i e; cases e; cases h; rfl)
    subst e
    exact r.trans ((q _).trans h2)

theorem policer_frame {s s' : Policer.State} {c : Nf.Policer.Config} {p : Packet} {o : List Out}
    (h : Policer.handle l c s p = some (s', o)) : Frame l s.table.mem s'.table.mem := by
  have r := receive_frame l s.table p
  unfold Policer.handle at h
  simp only [Option.bind_eq_bind] at h
  split at h
  · cases h; exact r
  split at h
  · simp only [Option.bind_eq_some_iff] at h
    obtain ⟨⟨s1, b⟩, h1, h⟩ := h
    have e : s1 = s' := by split at h <;> (rename_i e; cases e; cases h; rfl)
    subst e
    refine r.trans ?_
    unfold Policer.police at h1
    simp only [Option.bind_eq_bind, Option.bind_eq_some_iff] at h1
    obtain ⟨_, _, h1⟩ := h1
    split at h1
    · unfold Policer.known at h1
      simp only [Option.bind_eq_bind, Option.bind_eq_some_iff] at h1
      obtain ⟨_, h2, _, _, h1⟩ := h1
      have := refresh_frame (l := l) h2
      split at h1 <;> (cases h1; exact this)
    · unfold Policer.unknown at h1
      split at h1
      · cases h1; exact Frame.refl l _
      · simp only [Option.bind_eq_bind, Option.bind_eq_some_iff] at h1
        obtain ⟨⟨s2, i⟩, h2, h1⟩ := h1
        have := insert_frame h2
        split at h1
        · rename_i e; cases e; cases h1; exact this
        · rename_i e; cases e
          split at h1
          · cases h1; exact this
          · cases h1
  · cases h; exact r

theorem learn_frame {devices devices' : List Nat} {time kp device : Nat}
    (h : Bridge.learn l s devices time kp device = some (s', devices')) : Frame l s.mem s'.mem := by
  unfold Bridge.learn at h
  simp only [Option.bind_eq_bind, Option.bind_eq_some_iff] at h
  obtain ⟨_, _, h⟩ := h
  split at h
  · simp only [Option.bind_eq_some_iff] at h
    obtain ⟨_, h1, h⟩ := h
    split at h
    · cases h; exact refresh_frame h1
    · cases h
  · simp only [Option.bind_eq_some_iff] at h
    obtain ⟨⟨s1, r⟩, h1, h⟩ := h
    have h2 := insert_frame h1
    split at h
    · rename_i e; cases e; cases h; exact h2
    · rename_i e; cases e
      split at h
      · cases h; exact h2
      · cases h

theorem bridge_frame {s s' : Bridge.State} {p : Packet} {o : List Out}
    (h : Bridge.handle l s p = some (s', o)) : Frame l s.table.mem s'.table.mem := by
  have r := receive_frame l s.table p
  unfold Bridge.handle at h
  simp only [Option.bind_eq_bind, Option.bind_eq_some_iff] at h
  obtain ⟨⟨stp, x⟩, _, h⟩ := h
  split at h
  · cases h; exact r
  · refine r.trans ?_
    unfold Bridge.handleData at h
    simp only [Option.bind_eq_bind, Option.bind_eq_some_iff] at h
    obtain ⟨⟨t, d⟩, h1, _, _, h⟩ := h
    cases h
    unfold Bridge.learnSource at h1
    split at h1
    · exact learn_frame h1
    · cases h1; exact Frame.refl l _

theorem pick_frame {s s' : Maglev.Balancer} {kp time : Nat} {o : Option Nat}
    (h : Maglev.pick l s kp time = some (s', o)) : Frame l s.flows.mem s'.flows.mem := by
  unfold Maglev.pick at h
  simp only [Option.bind_eq_bind, Option.bind_eq_some_iff] at h
  obtain ⟨_, _, h⟩ := h
  split at h
  · cases h; exact Frame.refl l _
  · simp only [Option.bind_eq_some_iff] at h
    obtain ⟨⟨s1, r⟩, h1, h⟩ := h
    cases h
    exact insert_frame h1

theorem getBackend_frame {s s' : Maglev.Balancer} {kp time : Nat} {o : Option Nat}
    (h : Maglev.getBackend l s kp time = some (s', o)) : Frame l s.flows.mem s'.flows.mem := by
  unfold Maglev.getBackend at h
  simp only [Option.bind_eq_bind, Option.bind_eq_some_iff] at h
  obtain ⟨_, _, h⟩ := h
  split at h
  · simp only [Option.bind_eq_some_iff] at h
    obtain ⟨_, _, b, _, h⟩ := h
    unfold Maglev.knownFlow at h
    cases b with
    | true =>
      simp only [Option.bind_eq_bind, Option.bind_eq_some_iff] at h
      obtain ⟨_, h1, h⟩ := h
      cases h
      exact refresh_frame h1
    | false =>
      simp only [Option.bind_eq_bind, Option.bind_eq_some_iff] at h
      obtain ⟨_, h1, h⟩ := h
      exact (drop_frame h1).trans (pick_frame h)
  · exact pick_frame h

theorem maglev_frame {s s' : Maglev.Balancer} {n : Nat} {p : Packet} {o : List Out}
    (h : Maglev.handle l n s p = some (s', o)) : Frame l s.flows.mem s'.flows.mem := by
  have r := receive_frame l s.flows p
  have q := putFlow_frame l (receive l s.flows p)
  unfold Maglev.handle at h
  simp only [Option.bind_eq_bind] at h
  split at h
  · cases h; exact r
  split at h
  · cases h; exact r
  split at h
  · simp only [Option.bind_eq_some_iff] at h
    obtain ⟨s1, h1, h⟩ := h
    cases h
    unfold Maglev.heartbeat at h1
    simp only [Option.bind_eq_bind, Option.bind_eq_some_iff] at h1
    obtain ⟨_, _, h1⟩ := h1
    cases h1
    exact r
  · simp only [Option.bind_eq_some_iff] at h
    obtain ⟨⟨s1, b⟩, h1, h⟩ := h
    have e : s1 = s' := by split at h <;> (rename_i e; cases e; cases h; rfl)
    subst e
    exact r.trans ((q _).trans (getBackend_frame h1))

theorem alloc_frame {exp : Nat} (h : alloc l m exp = some s) : Frame l m s.mem := by
  unfold alloc at h
  simp only [Option.bind_eq_bind, Option.bind_eq_some_iff] at h
  obtain ⟨_, _, _, _, h⟩ := h
  cases h
  intro a _ _ h3
  show store m l.keys (l.ks * l.size) (fun _ => 0) a = m a
  unfold store
  rw [if_neg (by omega)]

theorem run_frame {S : Type} {get : S → Mem} {hd : S → Packet → Option (S × List Out)}
    (step : ∀ {s s' p o}, hd s p = some (s', o) → Frame l (get s) (get s')) :
    ∀ (ps : List Packet) {s s' : S} {os : List (List Out)}, run hd s ps = some (s', os) → Frame l (get s) (get s') := by
  intro ps
  induction ps with
  | nil => intro s s' os h; cases h; exact Frame.refl l _
  | cons p ps ih =>
    intro s s' os h
    unfold run at h
    simp only [Option.bind_eq_bind, Option.bind_eq_some_iff] at h
    obtain ⟨⟨s1, o⟩, h1, ⟨s2, os2⟩, h2, h⟩ := h
    cases h
    exact (step h1).trans (ih h2)

end Verif.Nf.Low
