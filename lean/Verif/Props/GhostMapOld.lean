/-
Properties C23 and C25: reads of older versions of ghost maps, and invariants that refer to them.
-/
import Verif.Props.GhostMap

set_option autoImplicit false

namespace Verif.Tool.GhostMap

/-- The program reads and updates the map only at keys that no layer above version `v` has touched, under
every assignment that describes the world. -/
def Prog.Apart (fuel : Nat) (W : Nat → Contents) (obj v : Nat) : State → Env → Prog → Prop
  | _, _, .done => True
  | st, ρ, .get o key k =>
    (o = obj → Untouched ρ ((st.maps obj).layers.take ((st.maps obj).layers.length - v)) (key.den ρ)) ∧
      ∀ r st' ρ', GhostMap.get fuel st o none key none (.lit true) = some (r, st') → Agree st.next ρ ρ' → Describes st' W ρ' →
        Prog.Apart fuel W obj v st' ρ' (k r.1 r.2)
  | st, ρ, .length o k => Prog.Apart fuel W obj v st ρ (k (lengthOf (st.maps o) (st.maps o).layers))
  | st, ρ, .set o key value k =>
    (o = obj → Untouched ρ ((st.maps obj).layers.take ((st.maps obj).layers.length - v)) (key.den ρ)) ∧
      ∀ st' ρ', GhostMap.set fuel st o key value = some st' → Agree st.next ρ ρ' → Describes st' W ρ' → Prog.Apart fuel W obj v st' ρ' k
  | st, ρ, .remove o key k =>
    (o = obj → Untouched ρ ((st.maps obj).layers.take ((st.maps obj).layers.length - v)) (key.den ρ)) ∧
      ∀ st' ρ', GhostMap.remove fuel st o key = some st' → Agree st.next ρ ρ' → Describes st' W ρ' → Prog.Apart fuel W obj v st' ρ' k
  | st, ρ, .assume c k => Prog.Apart fuel W obj v (st.add [c]) ρ k

/-- The layers of version `v` are intact, and what is recorded of the base is right as seen from it. -/
structure Keeps (W : Nat → Contents) (obj v : Nat) (lower : List Layer) (st : State) (ρ : Env) : Prop where
  le : v ≤ (st.maps obj).layers.length
  base : BaseOk ρ (W obj) (st.maps obj).base ((st.maps obj).layers.drop ((st.maps obj).layers.length - v))
  same : SameLayers ((st.maps obj).layers.drop ((st.maps obj).layers.length - v)) lower

theorem SameLayers.length_eq {a b : List Layer} (h : SameLayers a b) : a.length = b.length := by
  have := congrArg List.length h
  simpa using this

theorem SameLayers.take {a b : List Layer} (h : SameLayers a b) (d : Nat) : SameLayers (a.take d) (b.take d) := by
  unfold SameLayers at h ⊢
  rw [List.map_take, List.map_take, h]

theorem untouched_append {ρ : Env} {a b : List Layer} {k : Nat} (h1 : Untouched ρ a k) (h2 : Untouched ρ b k) : Untouched ρ (a ++ b) k := by
  intro l hl
  rcases List.mem_append.1 hl with hl | hl
  · exact h1 l hl
  · exact h2 l hl

theorem SameLayers.baseOk {ρ : Env} {w : Contents} {base : List Item} {a b : List Layer} (h : SameLayers a b) (hb : BaseOk ρ w base b) : BaseOk ρ w base a :=
  fun i hi hu => hb i hi (h.symm.untouched hu)

/-- A read of the newest version at a key untouched since version `v` keeps version `v`. -/
theorem Keeps.read {W : Nat → Contents} {obj v : Nat} {lower : List Layer} {st : State} {ρ : Env} (hk : Keeps W obj v lower st ρ) (h : Describes st W ρ)
    {o : Nat} {key : E} (hkey : key.within st.next) {r : E × B} {st' : State} {ρ' : Env} (hr : Read st W ρ o none key (.lit true) r st' ρ')
    (hu : o = obj → Untouched ρ ((st.maps obj).layers.take ((st.maps obj).layers.length - v)) (key.den ρ)) : Keeps W obj v lower st' ρ' := by
  have hsl := hr.layers obj
  have hlen := hsl.length_eq
  have hw := (h.maps obj).within
  have hlw : ∀ l ∈ (st.maps obj).layers, ∀ i ∈ l.items, i.within st.next := fun l hl => (hw.layers l hl).2
  have hlow := hk.base.congr hr.agree (fun l hl => hlw l (List.mem_of_mem_drop hl)) hw.base
  refine ⟨by rw [hlen]; exact hk.le, ?_, ?_⟩
  · rw [hlen]
    refine (hsl.drop _).baseOk ?_
    rcases hr.base obj with e | ⟨ho, i, hi, e⟩
    · rw [e]; exact hlow
    · rw [e]
      intro j hj hun
      rcases List.mem_append.1 hj with hj | hj
      · exact hlow j hj hun
      · rw [List.mem_singleton.1 hj] at hun ⊢
        refine (hr.describes.maps obj).base i (by rw [e]; simp) ?_
        refine hsl.untouched ?_
        rw [← List.take_append_drop ((st.maps obj).layers.length - v) (st.maps obj).layers]
        refine untouched_append ?_ hun
        rw [hi, ← E.den_congr hr.agree _ hkey]
        exact (Untouched.congr hr.agree fun l hl => hlw l (List.mem_of_mem_take hl)).1 (hu ho.symm)
  · rw [hlen]
    exact (hsl.drop _).trans hk.same

/-- So does an update. -/
theorem Keeps.update {W : Nat → Contents} {obj v : Nat} {lower : List Layer} {st : State} {ρ : Env} (hk : Keeps W obj v lower st ρ) (h : Describes st W ρ)
    {o k : Nat} {P : Nat × Bool → Prop} {st' : State} {ρ' : Env} (hr : Updated st W ρ o k P st' ρ')
    (hu : o = obj → Untouched ρ ((st.maps obj).layers.take ((st.maps obj).layers.length - v)) k) : Keeps W obj v lower st' ρ' := by
  have hw := (h.maps obj).within
  have hlw : ∀ l ∈ (st.maps obj).layers, ∀ i ∈ l.items, i.within st.next := fun l hl => (hw.layers l hl).2
  have hlow := hk.base.congr hr.agree (fun l hl => hlw l (List.mem_of_mem_drop hl)) hw.base
  by_cases ho : o = obj
  · subst ho
    obtain ⟨⟨l, ls, e, hsl⟩, -⟩ := hr.layers
    have hlen : (st'.maps o).layers.length = (st.maps o).layers.length + 1 := by rw [e, List.length_cons, hsl.length_eq]
    have hle := hk.le
    have hd : (st'.maps o).layers.drop ((st'.maps o).layers.length - v) = ls.drop ((st.maps o).layers.length - v) := by
      rw [hlen, e, show (st.maps o).layers.length + 1 - v = ((st.maps o).layers.length - v) + 1 from by omega, List.drop_succ_cons]
    refine ⟨by omega, ?_, by rw [hd]; exact (hsl.drop _).trans hk.same⟩
    rw [hd]
    refine (hsl.drop _).baseOk ?_
    obtain ⟨extra, eb, hx⟩ := hr.base o
    have hprev := hr.prev l ls e
    intro j hj hun
    rw [eb] at hj
    rcases List.mem_append.1 hj with hj | hj
    · exact hlow j hj hun
    · refine hprev j (by rw [eb]; simp [hj]) ?_
      refine hsl.untouched ?_
      rw [← List.take_append_drop ((st.maps o).layers.length - v) (st.maps o).layers]
      refine untouched_append ?_ hun
      rw [(hx j hj).2]
      exact (Untouched.congr hr.agree fun l hl => hlw l (List.mem_of_mem_take hl)).1 (hu rfl)
  · have hsl := hr.layers.2 obj (Ne.symm ho)
    have hlen := hsl.length_eq
    refine ⟨by rw [hlen]; exact hk.le, ?_, by rw [hlen]; exact (hsl.drop _).trans hk.same⟩
    rw [hlen]
    refine (hsl.drop _).baseOk ?_
    obtain ⟨extra, eb, hx⟩ := hr.base obj
    intro j hj hun
    rw [eb] at hj
    rcases List.mem_append.1 hj with hj | hj
    · exact hlow j hj hun
    · exact absurd (hx j hj).1.symm ho

theorem prog_keeps (fuel : Nat) (W : Nat → Contents) (obj v : Nat) (lower : List Layer) : ∀ (p : Prog) (st : State) (ρ : Env), Describes st W ρ →
    p.Clean (fuel + 1) W st ρ → p.Apart (fuel + 1) W obj v st ρ → Keeps W obj v lower st ρ →
    ∃ st' ρ', p.run (fuel + 1) st = some st' ∧ Agree st.next ρ ρ' ∧ st.next ≤ st'.next ∧ Describes st' W ρ' ∧ Keeps W obj v lower st' ρ' := by
  intro p
  induction p with
  | done => exact fun st ρ h _ _ hk => ⟨st, ρ, rfl, Agree.refl _ _, Nat.le_refl _, h, hk⟩
  | get o key k ih =>
    intro st ρ h hc ha hk
    obtain ⟨r, st1, ρ1, hg, hr⟩ := get_read fuel h o none (hint := none) (cond := .lit true) hc.1 (by simp) trivial (h.maps o).base (by simp)
    obtain ⟨st', ρ', h1, h2, h2', h3, h4⟩ := ih r.1 r.2 st1 ρ1 hr.describes (hc.2 r st1 ρ1 hg hr.agree hr.describes) (ha.2 r st1 ρ1 hg hr.agree hr.describes)
      (hk.read h hc.1 hr ha.1)
    exact ⟨st', ρ', by unfold Prog.run; rw [hg]; exact h1, hr.agree.trans h2 hr.next, hr.next.trans h2', h3, h4⟩
  | length o k ih =>
    intro st ρ h hc ha hk
    exact ih _ st ρ h hc ha hk
  | set o key value k ih =>
    intro st ρ h hc ha hk
    obtain ⟨st1, ρ1, hs, hu⟩ := set_updated fuel h o hc.1 hc.2.1 hc.2.2.1 hc.2.2.2.1 hc.2.2.2.2.1
    obtain ⟨st', ρ', h1, h2, h2', h3, h4⟩ := ih st1 ρ1 hu.describes (hc.2.2.2.2.2 st1 ρ1 hs hu.agree hu.describes) (ha.2 st1 ρ1 hs hu.agree hu.describes)
      (hk.update h hu ha.1)
    exact ⟨st', ρ', by unfold Prog.run; rw [hs]; exact h1, hu.agree.trans h2 hu.next, hu.next.trans h2', h3, h4⟩
  | remove o key k ih =>
    intro st ρ h hc ha hk
    obtain ⟨st1, ρ1, hs, hu⟩ := remove_updated fuel h o hc.1 hc.2.1 hc.2.2.1
    obtain ⟨st', ρ', h1, h2, h2', h3, h4⟩ := ih st1 ρ1 hu.describes (hc.2.2.2 st1 ρ1 hs hu.agree hu.describes) (ha.2 st1 ρ1 hs hu.agree hu.describes)
      (hk.update h hu ha.1)
    exact ⟨st', ρ', by unfold Prog.run; rw [hs]; exact h1, hu.agree.trans h2 hu.next, hu.next.trans h2', h3, h4⟩
  | assume c k ih =>
    intro st ρ h hc ha hk
    have hd : Describes (st.add [c]) W ρ := h.add (by simpa using ⟨hc.1, hc.2.1⟩)
    exact ih _ ρ hd hc.2.2 ha ⟨hk.le, hk.base, hk.same⟩

end Verif.Tool.GhostMap

namespace Verif.Props

open Verif.Tool.GhostMap

/-- C23, for programs that since the old version read and update its map only at keys not updated since.
The old version of a map is read, after any such program, at any key: the result is what the map held when
that version was the newest, and no world is lost. What is missing: keys that were updated in the meantime
and are then read or updated again, for which it is false (`C23_old_version_wrong`), and what C20 misses. -/
theorem C23_old_version_partial (fuel : Nat) (W : Nat → Contents) (st : State) (ρ : Env) (p : Prog) (obj : Nat) (h : Describes st W ρ)
    (hc : p.Clean (fuel + 1) W st ρ) (ha : p.Apart (fuel + 1) W obj (st.maps obj).version st ρ) :
    ∃ st' ρ', p.run (fuel + 1) st = some st' ∧ Agree st.next ρ ρ' ∧ Describes st' W ρ' ∧
      ∀ key : E, key.within st.next → ∃ r st'' ρ'', get (fuel + 1) st' obj (some (st.maps obj).version) key none (.lit true) = some (r, st'') ∧
        Agree st.next ρ ρ'' ∧ Describes st'' W ρ'' ∧ r.2.den ρ'' = (st.contentAt W ρ obj none (key.den ρ)).2 ∧
        (r.2.den ρ'' = true → r.1.den ρ'' = (st.contentAt W ρ obj none (key.den ρ)).1) := by
  have hk0 : Keeps W obj (st.maps obj).version (st.maps obj).layers st ρ := by
    refine ⟨Nat.le_refl _, ?_, ?_⟩
    · rw [show (st.maps obj).layers.length - (st.maps obj).version = 0 from Nat.sub_self _]; exact (h.maps obj).base
    · rw [show (st.maps obj).layers.length - (st.maps obj).version = 0 from Nat.sub_self _]; rfl
  obtain ⟨st', ρ', h1, h2, h3, h4, h5⟩ := prog_keeps fuel W obj _ _ p st ρ h hc ha hk0
  refine ⟨st', ρ', h1, h2, h4, fun key hkey => ?_⟩
  obtain ⟨r, st'', ρ'', hg, hr⟩ := get_read fuel h4 obj (some (st.maps obj).version) (hint := none) (cond := .lit true)
    (E.within_mono h3 _ hkey) (by simp) trivial h5.base (by simp)
  have hcont : st'.contentAt W ρ' obj (some (st.maps obj).version) (key.den ρ') = st.contentAt W ρ obj none (key.den ρ) := by
    rw [← E.den_congr h2 _ hkey]
    unfold State.contentAt
    show content ρ' (W obj) ((st'.maps obj).layers.drop ((st'.maps obj).layers.length - (st.maps obj).version)) _ = content ρ (W obj) ((st.maps obj).layers.drop 0) _
    rw [h5.same.content, List.drop_zero, content_congr h2 _ fun l hl => ((h.maps obj).within.layers l hl).2]
  refine ⟨r, st'', ρ'', hg, h2.trans hr.agree h3, hr.describes, by rw [hr.present rfl, hcont], fun hp => ?_⟩
  rw [hr.value rfl (by rw [← hr.present rfl]; exact hp), hcont]

end Verif.Props
