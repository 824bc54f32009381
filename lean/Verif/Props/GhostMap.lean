/-
Properties C19 and C20: reads of ghost maps are sound, updates are exact.
-/
import Verif.Props.GhostMapSet

set_option autoImplicit false

namespace Verif.Props

open Verif.Tool.GhostMap

/-- C19, for maps whose invariants read no other map. A read of the newest version of a map always returns;
afterwards the state still describes every world it described, under an assignment that leaves all the
existing symbols as they were; the result is present if and only if the key is in the map of that world,
and then its value is the value there. What is missing: invariants that read other maps, for
which see `C19_cross_partial`, and maps with flattened layers (`C20_set_lost`). -/
theorem C19_get_partial (fuel : Nat) (st : State) (W : Nat → Contents) (ρ : Env) (h : Describes st W ρ) (obj : Nat) (key : E) (hk : key.within st.next) :
    ∃ r st' ρ', get (fuel + 1) st obj none key none (.lit true) = some (r, st') ∧ Agree st.next ρ ρ' ∧ Describes st' W ρ' ∧
      r.2.den ρ' = (st.contentAt W ρ obj none (key.den ρ)).2 ∧
      (r.2.den ρ' = true → r.1.den ρ' = (st.contentAt W ρ obj none (key.den ρ)).1) ∧
      ∀ o, st'.contentAt W ρ' o none = st.contentAt W ρ o none := by
  obtain ⟨r, st', ρ', hg, hr⟩ := get_read fuel h obj none (hint := none) (cond := .lit true) hk (by simp) trivial (h.maps obj).base (by simp)
  refine ⟨r, st', ρ', hg, hr.agree, hr.describes, hr.present rfl, fun hp => hr.value rfl ?_, fun o => ?_⟩
  · rw [← hr.present rfl]; exact hp
  · unfold State.contentAt
    rw [show skip (st'.maps o) none = 0 from rfl, show skip (st.maps o) none = 0 from rfl, List.drop_zero, List.drop_zero, (hr.layers o).content]
    exact (content_congr hr.agree _ fun l hl => ((h.maps o).within.layers l hl).2).symm

theorem contentAt_congr {st st' : State} {W : Nat → Contents} {ρ ρ' : Env} (h : Describes st W ρ) (ha : Agree st.next ρ ρ') {o : Nat}
    (hl : SameLayers (st'.maps o).layers (st.maps o).layers) : st'.contentAt W ρ' o none = st.contentAt W ρ o none := by
  unfold State.contentAt
  rw [show skip (st'.maps o) none = 0 from rfl, show skip (st.maps o) none = 0 from rfl, List.drop_zero, List.drop_zero, hl.content]
  exact (content_congr ha _ fun l hl => ((h.maps o).within.layers l hl).2).symm

theorem maps'_congr {st st' : State} {W : Nat → Contents} {ρ ρ' : Env} (h : Describes st W ρ) (ha : Agree st.next ρ ρ')
    (hl : ∀ o, SameLayers (st'.maps o).layers (st.maps o).layers) : st'.maps' W ρ' = st.maps' W ρ := by
  funext o k
  unfold State.maps'
  rw [contentAt_congr h ha (hl o)]

theorem updated_maps' {st st' : State} {W : Nat → Contents} {ρ ρ' : Env} {obj k : Nat} {v : Nat × Bool → Prop} (h : Describes st W ρ)
    (hu : Updated st W ρ obj k v st' ρ') {x : Option Nat} (hx : ∀ y, v y → (if y.2 then some y.1 else none) = x) :
    st'.maps' W ρ' = Maps.put (st.maps' W ρ) obj k x := by
  funext o j
  unfold State.maps' Maps.put
  by_cases ho : o = obj
  · subst ho
    obtain ⟨y, hy, e⟩ := hu.newest
    rw [e]
    by_cases hj : j = k
    · subst hj
      simp only [Function.update_self, and_self, if_true]
      exact hx y hy
    · simp only [Function.update_of_ne hj, hj, and_false, if_false]
  · simp only [ho, false_and, if_false, contentAt_congr h hu.agree (hu.layers.2 o ho)]

/-- Lengths are the number of keys. -/
theorem length_card {st : State} {W : Nat → Contents} {ρ : Env} (h : Describes st W ρ) (obj : Nat) :
    (lengthOf (st.maps obj) (st.maps obj).layers).den ρ = {j | (st.maps' W ρ obj j).isSome}.ncard := by
  obtain ⟨S, hS, hc, -⟩ := (h.maps obj).length 0
  simp only [List.drop_zero] at hS hc
  rw [hc]
  have : {j | (st.maps' W ρ obj j).isSome} = (S : Set Nat) := by
    ext j
    simp only [Set.mem_ofPred_eq, Finset.mem_coe, hS, State.maps', State.contentAt, show skip (st.maps obj) none = 0 from rfl, List.drop_zero]
    cases (content ρ (W obj) (st.maps obj).layers j).2 <;> simp
  rw [this, Set.ncard_coe_finset]

/-- The verifier's run of a program is faithful. -/
theorem prog_faithful (fuel : Nat) (W : Nat → Contents) : ∀ (p : Prog) (st : State) (ρ : Env), Describes st W ρ → p.Clean (fuel + 1) W st ρ →
    ∃ st' ρ', p.run (fuel + 1) st = some st' ∧ Agree st.next ρ ρ' ∧ st.next ≤ st'.next ∧ Describes st' W ρ' ∧ p.Faithful (fuel + 1) ρ' (st.maps' W ρ) st := by
  intro p
  induction p with
  | done => exact fun st ρ h _ => ⟨st, ρ, rfl, Agree.refl _ _, Nat.le_refl _, h, trivial⟩
  | get obj key k ih =>
    intro st ρ h hc
    obtain ⟨r, st1, ρ1, hg, hr⟩ := get_read fuel h obj none (hint := none) (cond := .lit true) hc.1 (by simp) trivial (h.maps obj).base (by simp)
    obtain ⟨st', ρ', h1, h2, h2', h3, h4⟩ := ih r.1 r.2 st1 ρ1 hr.describes (hc.2 r st1 ρ1 hg hr.agree hr.describes)
    rw [maps'_congr h hr.agree hr.layers] at h4
    refine ⟨st', ρ', by unfold Prog.run; rw [hg]; exact h1, hr.agree.trans h2 hr.next, hr.next.trans h2', h3, ?_⟩
    unfold Prog.Faithful
    rw [hg]
    refine ⟨?_, h4⟩
    rw [← B.den_congr h2 _ hr.within.2, ← E.den_congr h2 _ hr.within.1, ← E.den_congr (hr.agree.trans h2 hr.next) _ hc.1, hr.present rfl]
    unfold State.maps'
    cases hp : (st.contentAt W ρ obj none (key.den ρ)).2 with
    | false => simp
    | true => simp [hr.value rfl hp]
  | length obj k ih =>
    intro st ρ h hc
    obtain ⟨st', ρ', h1, h2, h2', h3, h4⟩ := ih _ st ρ h hc
    refine ⟨st', ρ', h1, h2, h2', h3, ?_, h4⟩
    exact (E.den_congr h2 _ (lengthOf_within (h.maps obj).within 0)).symm.trans (length_card h obj)
  | set obj key value k ih =>
    intro st ρ h hc
    obtain ⟨st1, ρ1, hs, hu⟩ := set_updated fuel h obj hc.1 hc.2.1 hc.2.2.1 hc.2.2.2.1 hc.2.2.2.2.1
    obtain ⟨st', ρ', h1, h2, h2', h3, h4⟩ := ih st1 ρ1 hu.describes (hc.2.2.2.2.2 st1 ρ1 hs hu.agree hu.describes)
    have ha := hu.agree.trans h2 hu.next
    refine ⟨st', ρ', by unfold Prog.run; rw [hs]; exact h1, ha, hu.next.trans h2', h3, ?_⟩
    unfold Prog.Faithful
    rw [hs]
    show Prog.Faithful _ _ _ _ _
    rw [updated_maps' h hu (x := some (value.den ρ)) (by rintro _ rfl; rfl)] at h4
    rw [← E.den_congr ha _ hc.1, ← E.den_congr ha _ hc.2.1]
    exact h4
  | remove obj key k ih =>
    intro st ρ h hc
    obtain ⟨st1, ρ1, hs, hu⟩ := remove_updated fuel h obj hc.1 hc.2.1 hc.2.2.1
    obtain ⟨st', ρ', h1, h2, h2', h3, h4⟩ := ih st1 ρ1 hu.describes (hc.2.2.2 st1 ρ1 hs hu.agree hu.describes)
    have ha := hu.agree.trans h2 hu.next
    refine ⟨st', ρ', by unfold Prog.run; rw [hs]; exact h1, ha, hu.next.trans h2', h3, ?_⟩
    unfold Prog.Faithful
    rw [hs]
    show Prog.Faithful _ _ _ _ _
    rw [updated_maps' h hu (x := none) (by intro y hy; simp [hy])] at h4
    rw [← E.den_congr ha _ hc.1]
    exact h4
  | assume c k ih =>
    intro st ρ h hc
    have hd : Describes (st.add [c]) W ρ := h.add (by simpa using ⟨hc.1, hc.2.1⟩)
    obtain ⟨st', ρ', h1, h2, h2', h3, h4⟩ := ih _ ρ hd hc.2.2
    refine ⟨st', ρ', h1, h2, h2', h3, ?_, h4⟩
    rw [← B.den_congr h2 _ hc.1]; exact hc.2.1

/-- C20 (and C19 for whole histories), for programs that are `Clean`: the verifier runs the program to its
end, no world is lost, and every read, length and update agrees with the same program on an ordinary map,
where `set` and `remove` change one key. What is missing: updates that are flattened into the newest layer,
for which it is false (`C20_set_lost`), updates of the unknown item's key, for which it is false
(`C20_unknown_key_wrong`), and invariants that read other maps, for which see `C20_cross_program_partial`. -/
theorem C20_program_partial (fuel : Nat) (W : Nat → Contents) (st : State) (ρ : Env) (p : Prog) (h : Describes st W ρ) (hc : p.Clean (fuel + 1) W st ρ) :
    ∃ st' ρ', p.run (fuel + 1) st = some st' ∧ Agree st.next ρ ρ' ∧ Describes st' W ρ' ∧ p.Faithful (fuel + 1) ρ' (st.maps' W ρ) st := by
  obtain ⟨st', ρ', h1, h2, -, h3, h4⟩ := prog_faithful fuel W p st ρ h hc
  exact ⟨st', ρ', h1, h2, h3, h4⟩

end Verif.Props
