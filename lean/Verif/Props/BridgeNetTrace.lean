/- Where the frames of a network of bridges come from, for property C73. -/
import Verif.Props.BridgeNetRoutes

set_option autoImplicit false

namespace Verif.Props
open Verif.Nf.BridgeNet
open Verif.BridgeNetSpec

namespace Networked
open Verif.Nf.Runtime (sent)

variable {net : Net}

/-- A frame by its origin and way. -/
def key (g : Flying) : Nat × List Port := (g.id, g.route)

theorem onward_keys (net : Net) (n b d : Nat) (f : Flying) (m : Mem) (ls : List Nat) :
    (onward net b f m (copies n d ls)).map key = (List.range n).filterMap fun o =>
      (sent d ls o).bind fun _ => (net.link (b, o)).map fun e => (f.id, e :: f.route) := by
  simp only [onward, copies, List.filterMap_filterMap, List.map_filterMap]
  congr 1
  funext o
  cases sent d ls o with
  | none => rfl
  | some l =>
    simp only [Option.map_some, Option.bind_some]
    cases net.link (b, o) <;> rfl

theorem leaving_keys (net : Net) (n b d : Nat) (f : Flying) (m : Mem) (ls : List Nat) :
    (leaving net b f m (copies n d ls)).map key = (List.range n).filterMap fun o =>
      (sent d ls o).bind fun _ => if net.link (b, o) = none then some (f.id, (b, o) :: f.route) else none := by
  simp only [leaving, copies, List.filterMap_filterMap, List.map_filterMap]
  congr 1
  funext o
  cases sent d ls o with
  | none => rfl
  | some l =>
    simp only [Option.map_some, Option.bind_some]
    split <;> rfl

theorem onward_nodup (w : Wired net) (n b d : Nat) (f : Flying) (m : Mem) (ls : List Nat) :
    ((onward net b f m (copies n d ls)).map key).Nodup := by
  rw [onward_keys]
  refine List.nodup_range.filterMap ?_
  intro o o' k h h'
  simp only [Option.mem_def, Option.bind_eq_some_iff, Option.map_eq_some_iff] at h h'
  obtain ⟨_, _, e, h1, rfl⟩ := h
  obtain ⟨_, _, e', h2, h3⟩ := h'
  simp only [Prod.mk.injEq, List.cons.injEq, and_true, true_and] at h3
  subst h3
  have := (w.sym _ _ h1).symm.trans (w.sym _ _ h2)
  simp only [Option.some.injEq, Prod.mk.injEq, true_and] at this
  exact this

theorem leaving_nodup (n b d : Nat) (f : Flying) (m : Mem) (ls : List Nat) :
    ((leaving net b f m (copies n d ls)).map key).Nodup := by
  rw [leaving_keys]
  refine List.nodup_range.filterMap ?_
  intro o o' k h h'
  simp only [Option.mem_def, Option.bind_eq_some_iff] at h h'
  obtain ⟨_, _, h⟩ := h
  obtain ⟨_, _, h'⟩ := h'
  split at h
  · split at h'
    · cases h; simp only [Option.some.injEq, Prod.mk.injEq, List.cons.injEq, true_and, and_true] at h'; exact h'.symm
    · cases h'
  · cases h

/-- Frames come from where they say. -/
structure Traced (net : Net) (s : St) : Prop where
  wire : ∀ g ∈ s.wire, Route net g.route ∧ ∃ e, s.injected[g.id]? = some e ∧ g.route.getLast? = some e.1
  handled : ∀ g ∈ s.handled, Route net g.1.route ∧ ∃ e, s.injected[g.1.id]? = some e ∧ g.1.route.getLast? = some e.1
  left : ∀ g ∈ s.left, ∃ b o d rest, g.route = (b, o) :: (b, d) :: rest ∧ o ≠ d ∧ net.link (b, o) = none ∧
    ∃ h ∈ s.handled, h.1.id = g.id ∧ h.1.route = (b, d) :: rest
  parent : ∀ g ∈ s.handled.map Prod.fst ++ s.wire, ∀ e e' rest, g.route = e :: e' :: rest →
    ∃ h ∈ s.handled, h.1.id = g.id ∧ h.1.route = e' :: rest
  nodup : ((s.handled.map Prod.fst ++ s.wire).map key).Nodup
  leftNodup : (s.left.map key).Nodup

theorem traced (w : Wired net) {s : St} {t : Nat → BridgeSpec.State} (h : Exec net s t) : Traced net s := by
  induction h with
  | start s h =>
    constructor <;> simp [h.wire, h.handled, h.left]
  | @inject s t b d f he _ _ _ _ ih =>
    have hget : ∀ (i : Nat) (e : Port × Frame), s.injected[i]? = some e → (s.injected ++ [((b, d), f)])[i]? = some e := by
      intro i e h
      rw [List.getElem?_append_left (List.getElem?_eq_some_iff.1 h).1]; exact h
    refine ⟨?_, ?_, ih.left, ?_, ?_, ih.leftNodup⟩
    · intro g hg
      rcases List.mem_append.1 hg with hg | hg
      · obtain ⟨h1, e, h2, h3⟩ := ih.wire g hg
        exact ⟨h1, e, hget _ _ h2, h3⟩
      · rw [List.mem_singleton.1 hg]
        exact ⟨.first _, ((b, d), f), by simp, rfl⟩
    · intro g hg
      obtain ⟨h1, e, h2, h3⟩ := ih.handled g hg
      exact ⟨h1, e, hget _ _ h2, h3⟩
    · intro g hg e e' rest hr
      rw [← List.append_assoc] at hg
      rcases List.mem_append.1 hg with hg | hg
      · exact ih.parent g hg e e' rest hr
      · rw [List.mem_singleton.1 hg] at hr
        simp at hr
    · simp only [← List.append_assoc]
      rw [List.map_append, List.nodup_append]
      refine ⟨ih.nodup, by simp, ?_⟩
      intro k hk k' hk' heq
      subst heq
      simp only [List.map_cons, List.map_nil, List.mem_singleton] at hk'
      subst hk'
      obtain ⟨g, hg, hgk⟩ := List.mem_map.1 hk
      have hid : g.id = s.injected.length := congrArg Prod.fst hgk
      have : ∃ e, s.injected[g.id]? = some e := by
        rcases List.mem_append.1 hg with hg | hg
        · obtain ⟨g', hg', rfl⟩ := List.mem_map.1 hg
          obtain ⟨_, e, h2, _⟩ := ih.handled g' hg'
          exact ⟨e, h2⟩
        · obtain ⟨_, e, h2, _⟩ := ih.wire g hg
          exact ⟨e, h2⟩
      obtain ⟨e, he⟩ := this
      rw [hid] at he
      simp at he
  | @handle s t pre post f b d rest time data r t' he h1 h2 h3 h4 h5 h6 h7 h8 h9 h10 ih =>
    obtain ⟨hroute, e0, hinj, hlast⟩ := ih.wire f (by rw [h1]; simp)
    -- the frame itself has not been handled
    have hfresh : ∀ h ∈ s.handled, ¬ (h.1.id = f.id ∧ h.1.route = f.route) := by
      rintro h hh ⟨e1, e2⟩
      have hn := ih.nodup
      rw [List.map_append, List.nodup_append] at hn
      refine hn.2.2 (key h.1) (List.mem_map_of_mem (List.mem_map_of_mem hh)) (key f) ?_ (by simp [key, e1, e2])
      exact List.mem_map_of_mem (by rw [h1]; simp)
    have hsend : ∀ o l, (o, l) ∈ copies (net.devices b) d r.2.2 → o ≠ d := by
      rintro o l h rfl
      have := (mem_copies.1 h).2
      rw [sent_self] at this
      cases this
    have hnew : ∀ g ∈ onward net b f r.2.1 (copies (net.devices b) d r.2.2),
        Route net g.route ∧ g.id = f.id ∧ ∃ e, g.route = e :: f.route := by
      intro g hg
      obtain ⟨o, l, e, h11, h12, rfl⟩ := mem_onward.1 hg
      refine ⟨?_, rfl, e, rfl⟩
      simp only [h2] at hroute ⊢
      exact .next o e hroute (hsend o l h11) h12
    refine ⟨?_, ?_, ?_, ?_, ?_, ?_⟩
    · intro g hg
      simp only [St.after, List.mem_append] at hg
      rcases hg with (hg | hg) | hg
      · exact ih.wire g (by rw [h1]; simp [hg])
      · exact ih.wire g (by rw [h1]; simp [hg])
      · obtain ⟨h11, h12, e, h13⟩ := hnew g hg
        refine ⟨h11, e0, by rw [h12]; exact hinj, ?_⟩
        rw [h13, h2, List.getLast?_cons_cons, ← h2]; exact hlast
    · intro g hg
      simp only [St.after, List.mem_append, List.mem_singleton] at hg
      rcases hg with hg | rfl
      · exact ih.handled g hg
      · exact ⟨hroute, e0, hinj, hlast⟩
    · intro g hg
      simp only [St.after, List.mem_append] at hg
      rcases hg with hg | hg
      · obtain ⟨b1, o1, d1, r1, h11, h12, h13, h, h14, h15⟩ := ih.left g hg
        exact ⟨b1, o1, d1, r1, h11, h12, h13, h, by simp [St.after, h14], h15⟩
      · obtain ⟨o, l, h11, h12, rfl⟩ := mem_leaving.1 hg
        refine ⟨b, o, d, rest, by simp [h2], hsend o l h11, h12, (f, due (s.bridge b) time), by simp [St.after], rfl, h2⟩
    · intro g hg e e' r1 hr
      have hg' : g ∈ s.handled.map Prod.fst ++ s.wire ∨ g ∈ onward net b f r.2.1 (copies (net.devices b) d r.2.2) := by
        simp only [St.after, List.map_append, List.map_cons, List.map_nil, List.mem_append, List.mem_singleton] at hg
        rw [h1]
        simp only [List.mem_append, List.mem_cons]
        tauto
      rcases hg' with hg' | hg'
      · obtain ⟨h, h11, h12⟩ := ih.parent g hg' e e' r1 hr
        exact ⟨h, by simp [St.after, h11], h12⟩
      · obtain ⟨_, h12, e1, h13⟩ := hnew g hg'
        rw [hr] at h13
        obtain ⟨_, h14⟩ := List.cons.inj h13
        exact ⟨(f, due (s.bridge b) time), by simp [St.after], h12.symm, h14.symm⟩
    · have hperm : ((s.handled ++ [(f, due (s.bridge b) time)]).map Prod.fst ++
          (pre ++ post ++ onward net b f r.2.1 (copies (net.devices b) d r.2.2))).Perm
          ((s.handled.map Prod.fst ++ (pre ++ f :: post)) ++ onward net b f r.2.1 (copies (net.devices b) d r.2.2)) := by
        simp only [List.map_append, List.map_cons, List.map_nil, List.append_assoc]
        refine List.Perm.append_left _ ?_
        simp only [← List.append_assoc]
        refine List.Perm.append_right _ ?_
        simpa using List.perm_middle.symm
      simp only [St.after]
      rw [(hperm.map key).nodup_iff, List.map_append, List.nodup_append, ← h1]
      refine ⟨ih.nodup, onward_nodup w _ _ _ _ _ _, ?_⟩
      intro k hk k' hk' heq
      subst heq
      obtain ⟨g, hg, rfl⟩ := List.mem_map.1 hk
      obtain ⟨g', hg', hgk⟩ := List.mem_map.1 hk'
      obtain ⟨_, h12, e1, h13⟩ := hnew g' hg'
      have hid : g'.id = g.id := congrArg Prod.fst hgk
      have hrt : g'.route = g.route := congrArg Prod.snd hgk
      rw [h13, h2] at hrt
      obtain ⟨h, h14, h15, h16⟩ := ih.parent g hg e1 (b, d) rest hrt.symm
      exact hfresh h h14 ⟨by rw [h15, ← hid, h12], by rw [h16, h2]⟩
    · simp only [St.after]
      rw [List.map_append, List.nodup_append]
      refine ⟨ih.leftNodup, leaving_nodup _ _ _ _ _ _, ?_⟩
      intro k hk k' hk' heq
      subst heq
      obtain ⟨g, hg, rfl⟩ := List.mem_map.1 hk
      obtain ⟨g', hg', hgk⟩ := List.mem_map.1 hk'
      obtain ⟨o, l, h11, h12, rfl⟩ := mem_leaving.1 hg'
      have hid : f.id = g.id := congrArg Prod.fst hgk
      have hrt : (b, o) :: f.route = g.route := congrArg Prod.snd hgk
      obtain ⟨b1, o1, d1, r1, h13, _, _, h, h14, h15, h16⟩ := ih.left g hg
      rw [h13] at hrt
      refine hfresh h h14 ⟨by rw [h15, hid], ?_⟩
      rw [h16]
      exact (List.cons.inj hrt).2.symm

end Networked

end Verif.Props
