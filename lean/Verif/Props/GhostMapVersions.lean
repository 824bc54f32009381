/-
Properties C23, C24 and C25: flattened layers, and invariants that refer to versions of other maps.
-/
import Verif.Props.GhostMapOld
import Verif.Props.GhostMapWrong2

set_option autoImplicit false

namespace Verif.Tool.GhostMap

/-- `with_item_layer` without the optimisation: every update makes a new layer. -/
def pushLayer (m : MapS) (item : Item) (change : E) : MapS :=
  { m with layers := ⟨[item], (lengthOf m m.layers).add change, (0, [])⟩ :: m.layers }

/-- The map with the cache of its newest layer emptied. -/
def clearCache (m : MapS) : MapS :=
  match m.layers with
  | [] => m
  | l :: ls => { m with layers := ⟨l.items, l.length, (0, [])⟩ :: ls }

theorem override_flatten (ρ : Env) (item : Item) (f : Contents) : ∀ l : List Item, (∀ i ∈ l, i.key.den ρ ≠ item.key.den ρ) →
    override ρ (l ++ [item]) f = override ρ [item] (override ρ l f) := by
  intro l h
  funext k
  unfold override
  rw [List.find?_append]
  by_cases hk : item.key.den ρ = k
  · have : (l.find? fun i => i.key.den ρ == k) = none := by
      rw [List.find?_eq_none]
      intro i hi
      have := h i hi
      rw [hk] at this
      simpa using this
    simp [this, hk]
  · have h1 : ([item].find? fun i => i.key.den ρ == k) = none := by simp [hk]
    rw [h1]
    simp

/-- A flattened key differs from the others in its layer. -/
theorem flattens_ne {l : Layer} {ls : List Layer} {key : E} (h : flattens (l :: ls) key = true) (ρ : Env) : ∀ i ∈ l.items, i.key.den ρ ≠ key.den ρ := by
  unfold flattens at h
  simp only [Bool.and_eq_true, Bool.not_eq_true', List.all_eq_true] at h
  intro i hi he
  obtain ⟨h1, h2⟩ := h.2 i hi
  have : i.key.same key = true := by
    unfold E.same
    simp only [h1, h.1, Bool.not_false, Bool.true_and, Bool.or_eq_true, beq_iff_eq]
    right
    rw [E.den_closed env0 ρ _ h1, E.den_closed env0 ρ _ h.1]; exact he
  rw [this] at h2
  simp at h2

theorem withItemLayer_flat {m : MapS} {item : Item} {change : E} {l : Layer} {ls : List Layer} (hl : m.layers = l :: ls) (h : flattens m.layers item.key = true) :
    withItemLayer m item change = { m with layers := ⟨l.items ++ [item], l.length.add change, l.cache⟩ :: ls } := by
  unfold withItemLayer
  rw [if_pos h]
  split
  · rename_i h'; rw [hl] at h'; simp at h'
  · rename_i l' ls' h'
    rw [hl] at h'
    obtain ⟨rfl, rfl⟩ := List.cons.inj h'
    rfl

theorem flattens_cons {m : MapS} {key : E} (h : flattens m.layers key = true) : ∃ l ls, m.layers = l :: ls := by
  cases hl : m.layers with
  | nil => rw [hl] at h; simp [flattens] at h
  | cons l ls => exact ⟨l, ls, rfl⟩

/-- What is right of the map with a new layer is right of the flattened one with an emptied cache. -/
theorem MapOk.flatten {n : Nat} {ρ : Env} {w : Contents} {m : MapS} {item : Item} {change : E} (hf : flattens m.layers item.key = true)
    (h : MapOk n ρ w (pushLayer m item change)) : MapOk n ρ w (clearCache (withItemLayer m item change)) := by
  obtain ⟨l, ls, hl⟩ := flattens_cons hf
  rw [withItemLayer_flat hl hf]
  have hne := flattens_ne (hl ▸ hf) ρ
  have hpl : (pushLayer m item change).layers = ⟨[item], l.length.add change, (0, [])⟩ :: l :: ls := by simp [pushLayer, hl, lengthOf]
  have hcl : clearCache { m with layers := ⟨l.items ++ [item], l.length.add change, l.cache⟩ :: ls } =
    { m with layers := ⟨l.items ++ [item], l.length.add change, (0, [])⟩ :: ls } := rfl
  rw [hcl]
  have hun : ∀ k, Untouched ρ (⟨l.items ++ [item], l.length.add change, (0, [])⟩ :: ls) k → Untouched ρ (⟨[item], l.length.add change, (0, [])⟩ :: l :: ls) k := by
    intro k hu x hx i hi
    rcases List.mem_cons.1 hx with rfl | hx
    · exact hu _ List.mem_cons_self i (List.mem_append_right _ hi)
    · rcases List.mem_cons.1 hx with rfl | hx
      · exact hu _ List.mem_cons_self i (List.mem_append_left _ hi)
      · exact hu x (by simp [hx]) i hi
  have hmem : ∀ x ∈ (⟨l.items ++ [item], l.length.add change, (0, [])⟩ :: ls : List Layer), ∀ i ∈ x.items, ∃ y ∈ (pushLayer m item change).layers, i ∈ y.items := by
    intro x hx i hi
    rw [hpl]
    rcases List.mem_cons.1 hx with rfl | hx
    · rcases List.mem_append.1 hi with hi | hi
      · exact ⟨l, by simp, hi⟩
      · exact ⟨_, List.mem_cons_self, hi⟩
    · exact ⟨x, by simp [hx], hi⟩
  have hcc := h.caches
  rw [hpl] at hcc
  refine ⟨⟨h.within.base, h.within.length, h.within.unknown, ?_, h.within.invs⟩, ⟨Nat.zero_le _, rfl, hcc.2.2.2.2⟩, ?_, ?_, ?_, h.unknown, ?_, h.invs, ?_⟩
  · intro x hx
    refine ⟨?_, fun i hi => ?_⟩
    · rcases List.mem_cons.1 hx with rfl | hx
      · exact (h.within.layers ⟨[item], l.length.add change, (0, [])⟩ (by rw [hpl]; simp)).1
      · exact (h.within.layers x (by rw [hpl]; simp [hx])).1
    · obtain ⟨y, hy, hi'⟩ := hmem x hx i hi
      exact (h.within.layers y hy).2 i hi'
  · intro x hx i hi j hj hk
    rcases List.mem_cons.1 hx with rfl | hx
    · rcases List.mem_append.1 hi with hi | hi <;> rcases List.mem_append.1 hj with hj | hj
      · exact h.distinct l (by rw [hpl]; simp) i hi j hj hk
      · rw [List.mem_singleton.1 hj] at hk; exact absurd hk (hne i hi)
      · rw [List.mem_singleton.1 hi] at hk; exact absurd hk.symm (hne j hj)
      · rw [List.mem_singleton.1 hi, List.mem_singleton.1 hj]
    · exact h.distinct x (by rw [hpl]; simp [hx]) i hi j hj hk
  · intro i hi hu
    exact h.base i hi (by rw [hpl]; exact hun _ hu)
  · intro x hx i hi
    obtain ⟨y, hy, hi'⟩ := hmem x hx i hi
    exact h.unknownKey y hy i hi'
  · intro x hx i hi
    obtain ⟨y, hy, hi'⟩ := hmem x hx i hi
    exact h.touched y hy i hi'
  · intro d
    cases d with
    | zero =>
      have := h.length 0
      rw [hpl] at this
      simp only [List.drop_zero, content] at this ⊢
      rw [override_flatten ρ item _ l.items hne]
      exact this
    | succ d =>
      have := h.length (d + 2)
      rw [hpl] at this
      cases hd : ls.drop d with
      | nil =>
        simp only [List.drop_succ_cons, hd] at this ⊢
        exact this
      | cons a b =>
        simp only [List.drop_succ_cons, hd] at this ⊢
        exact this

end Verif.Tool.GhostMap

namespace Verif.Props

open Verif.Tool.GhostMap

/-- C24, the contents: collapsing an update into the newest layer leaves the contents of the newest version, as given
by its layers, and the expression of its length as they are when the update makes a layer of its own. What is missing
is that reads report these contents, which needs the cache of the layer to be emptied
(`C24_cleared_cache_partial`, `C20_set_lost`), and that the version identifies the contents
(`C24_version_wrong`). -/
theorem C24_contents_partial (m : MapS) (item : Item) (change : E) (hf : flattens m.layers item.key = true) (ρ : Env) (w : Contents) :
    content ρ w (withItemLayer m item change).layers = content ρ w (pushLayer m item change).layers ∧
      lengthOf (withItemLayer m item change) (withItemLayer m item change).layers = lengthOf (pushLayer m item change) (pushLayer m item change).layers := by
  obtain ⟨l, ls, hl⟩ := flattens_cons hf
  rw [withItemLayer_flat hl hf]
  have hne := flattens_ne (hl ▸ hf) ρ
  refine ⟨?_, by simp [pushLayer, hl, lengthOf]⟩
  simp only [pushLayer, hl, content]
  exact override_flatten ρ item _ l.items hne

/-- `C24_contents_partial` applies: key 1 after key 0. -/
example : flattens ([⟨[⟨.const 0, .const 3, .lit true⟩], .const 1, (0, [])⟩] : List Layer) (.const 1) = true := by
  simp [flattens, E.symbolic]

/-- C24, reads: if the cache of the newest layer were emptied when an update is collapsed into it, a read of the newest
version at any key would report what it reports when the update makes a layer of its own, namely the contents.
The code keeps the cache, so that reads may be wrong (`C20_set_lost`). -/
theorem C24_cleared_cache_partial (fuel : Nat) (W : Nat → Contents) (st : State) (ρ : Env) (obj : Nat) (item : Item) (change : E)
    (hf : flattens (st.maps obj).layers item.key = true) (h : Describes (st.setMap obj (pushLayer (st.maps obj) item change)) W ρ)
    (key : E) (hk : key.within st.next) :
    (∃ r st' ρ', get (fuel + 1) (st.setMap obj (clearCache (withItemLayer (st.maps obj) item change))) obj none key none (.lit true) = some (r, st') ∧
      Agree st.next ρ ρ' ∧ Describes st' W ρ' ∧ r.2.den ρ' = (content ρ (W obj) (pushLayer (st.maps obj) item change).layers (key.den ρ)).2 ∧
      (r.2.den ρ' = true → r.1.den ρ' = (content ρ (W obj) (pushLayer (st.maps obj) item change).layers (key.den ρ)).1)) ∧
    (∃ r st' ρ', get (fuel + 1) (st.setMap obj (pushLayer (st.maps obj) item change)) obj none key none (.lit true) = some (r, st') ∧
      Agree st.next ρ ρ' ∧ Describes st' W ρ' ∧ r.2.den ρ' = (content ρ (W obj) (pushLayer (st.maps obj) item change).layers (key.den ρ)).2 ∧
      (r.2.den ρ' = true → r.1.den ρ' = (content ρ (W obj) (pushLayer (st.maps obj) item change).layers (key.den ρ)).1)) := by
  have hmo : MapOk st.next ρ (W obj) (pushLayer (st.maps obj) item change) := by
    have := h.maps obj; rw [setMap_same] at this; exact this
  have h2 : Describes (st.setMap obj (clearCache (withItemLayer (st.maps obj) item change))) W ρ := by
    refine ⟨h.sat, h.within, fun o => ?_⟩
    by_cases ho : o = obj
    · subst ho; rw [setMap_same]; exact hmo.flatten hf
    · have := h.maps o
      rw [setMap_other _ ho] at this ⊢
      exact this
  have hcont : ∀ m : MapS, content ρ (W obj) (clearCache m).layers = content ρ (W obj) m.layers := by
    intro m
    unfold clearCache
    split
    · rfl
    · rename_i l ls hl; simp [hl, content]
  constructor
  · obtain ⟨r, st', ρ', hg, hr⟩ := get_read fuel h2 obj none (key := key) (hint := none) (cond := .lit true) hk (by simp) trivial (h2.maps obj).base (by simp)
    have hca : (st.setMap obj (clearCache (withItemLayer (st.maps obj) item change))).contentAt W ρ obj none (key.den ρ) =
        content ρ (W obj) (pushLayer (st.maps obj) item change).layers (key.den ρ) := by
      unfold State.contentAt
      rw [setMap_same]
      show content ρ (W obj) ((clearCache (withItemLayer (st.maps obj) item change)).layers.drop 0) _ = _
      rw [List.drop_zero, hcont, (C24_contents_partial _ _ change hf ρ (W obj)).1]
    exact ⟨r, st', ρ', hg, hr.agree, hr.describes, by rw [hr.present rfl, hca], fun hp => by rw [hr.value rfl (by rw [← hr.present rfl]; exact hp), hca]⟩
  · obtain ⟨r, st', ρ', hg, hr⟩ := get_read fuel h obj none (key := key) (hint := none) (cond := .lit true) hk (by simp) trivial (h.maps obj).base (by simp)
    have hca : (st.setMap obj (pushLayer (st.maps obj) item change)).contentAt W ρ obj none (key.den ρ) =
        content ρ (W obj) (pushLayer (st.maps obj) item change).layers (key.den ρ) := by
      unfold State.contentAt
      rw [setMap_same]
      rfl
    exact ⟨r, st', ρ', hg, hr.agree, hr.describes, by rw [hr.present rfl, hca], fun hp => by rw [hr.value rfl (by rw [← hr.present rfl]; exact hp), hca]⟩

/-- C24 is false of versions: key 0 of a map is set, and the version is noted; then key 1 is set. The update is collapsed
into the newest layer, so the version is still the noted one, and a read at the noted version returns the later value
although the contents then were others. -/
theorem C24_version_wrong : ∃ (st st1 st2 st3 : State) (W : Nat → Contents) (ρ ρ1 : Env) (r : E × B),
    Describes st W ρ ∧ set 1 st 0 (.const 0) (.const 3) = some st1 ∧ Agree st.next ρ ρ1 ∧ Describes st1 W ρ1 ∧
    st1.contentAt W ρ1 0 none 1 = (9, true) ∧ set 1 st1 0 (.const 1) (.const 8) = some st2 ∧ (st2.maps 0).version = (st1.maps 0).version ∧
    get 1 st2 0 (some (st1.maps 0).version) (.const 1) none (.lit true) = some (r, st3) ∧ (∀ ρ', r.1.den ρ' = 8) ∧ ∃ ρ', sat st3.constraints ρ' := by
  have hB := start_world9 1 1
  -- the first update
  obtain ⟨st1a, hg2, -, -, -, hn2, -, hb2, hl2, hu2, hi2, hbl2, -⟩ := get_miss 0 start 0 none (.const 0) none (.lit true) rfl
    (by
      refine exactMatch_none hB.sat ?_ (by simp [E.symbolic])
      intro i hi; simp only [start, known, skip, List.drop_zero, List.nil_append, List.mem_singleton] at hi; subst hi; simp)
    trivial (hB.maps 0).within.invs
  obtain ⟨_, _, ρ2, hg2', hr2⟩ := get_read 0 hB 0 none (key := .const 0) (hint := none) (cond := .lit true) trivial (by simp) trivial
    (hB.maps 0).base (by simp)
  rw [hg2] at hg2'
  obtain ⟨rfl, rfl⟩ := Prod.mk.inj (Option.some.inj hg2')
  obtain ⟨p2, hp2, -⟩ := constantOr_some hr2.describes.sat hr2.within.2
  have hs2 := set_of_get (value := .const 3) hg2 hp2
  obtain ⟨_, ρ3, hs2', hU2⟩ := set_updated 0 hB 0 (key := .const 0) (value := .const 3) trivial trivial
    (by simp [start, E.den, env9]) rfl room9
  rw [hs2] at hs2'
  have hst2 := Option.some.inj hs2'
  have hl2' : (st1a.maps 0).layers = [] := by rw [hl2 rfl]; rfl
  have hb2' : (st1a.maps 0).base = [⟨.const 0, .var 5, .var 5⟩] := hb2
  generalize hst2d : st1a.setMap 0 (withItemLayer (st1a.maps 0) ⟨.const 0, .const 3, .lit true⟩ (.ite p2 (.const 0) (.const 1))) = st2 at hs2 hst2
  subst hst2
  have hm2 : st2.maps 0 = { st1a.maps 0 with layers := [⟨[⟨.const 0, .const 3, .lit true⟩], (st1a.maps 0).baseLength.add (.ite p2 (.const 0) (.const 1)), (0, [])⟩] } := by
    rw [← hst2d, setMap_same]
    simp [withItemLayer, flattens, hl2', lengthOf]
  have hu2' : (st2.maps 0).unknown = ⟨.var 2, .var 3, .var 2⟩ := by rw [hm2]; exact hu2
  have hbl2' : (st1a.maps 0).baseLength = .var 4 := hbl2
  have hk2 : (known (st2.maps 0).base (st2.maps 0).layers).1 = [⟨.const 0, .const 3, .lit true⟩] := by
    rw [hm2]
    simp [known, hb2', transform]
  -- the second update
  obtain ⟨st2a, hg3, -, -, -, hn3, -, hb3, hl3, hu3, hi3, hbl3, -⟩ := get_miss 0 st2 0 none (.const 1) none (.lit true)
    (by
      rw [hm2]
      show isEmpty ((st1a.maps 0).baseLength.add _) = false
      rw [hbl2']; simp [isEmpty, E.add, E.symbolic])
    (by
      rw [show skip (st2.maps 0) none = 0 from rfl, List.drop_zero, hk2, hu2']
      refine exactMatch_none hU2.describes.sat ?_ (by simp [E.symbolic])
      intro i hi
      simp only [List.cons_append, List.nil_append, List.mem_cons, List.not_mem_nil, or_false] at hi
      rcases hi with rfl | rfl <;> simp)
    trivial (hU2.describes.maps 0).within.invs
  obtain ⟨_, _, ρ4, hg3', hr3⟩ := get_read 0 hU2.describes 0 none (key := .const 1) (hint := none) (cond := .lit true) trivial (by simp) trivial
    (hU2.describes.maps 0).base (by simp)
  rw [hg3] at hg3'
  obtain ⟨rfl, rfl⟩ := Prod.mk.inj (Option.some.inj hg3')
  obtain ⟨p3, hp3, -⟩ := constantOr_some hr3.describes.sat hr3.within.2
  have hs3 := set_of_get (value := .const 8) hg3 hp3
  have hsl : SameLayers (st2a.maps 0).layers (st2.maps 0).layers := hr3.layers 0
  obtain ⟨c, hl3'⟩ : ∃ c, (st2a.maps 0).layers = [⟨[⟨.const 0, .const 3, .lit true⟩], (st1a.maps 0).baseLength.add (.ite p2 (.const 0) (.const 1)), c⟩] := by
    rw [hm2] at hsl
    cases hls : (st2a.maps 0).layers with
    | nil => rw [hls] at hsl; simp [SameLayers] at hsl
    | cons l ls =>
      rw [hls] at hsl
      cases ls with
      | nil =>
        obtain ⟨a, b, c⟩ := l
        simp only [SameLayers, List.map_cons, List.map_nil, List.cons.injEq, Prod.mk.injEq, and_true] at hsl
        exact ⟨c, by rw [hsl.1, hsl.2]⟩
      | cons l' ls => simp [SameLayers] at hsl
  generalize hst3d : st2a.setMap 0 (withItemLayer (st2a.maps 0) ⟨.const 1, .const 8, .lit true⟩ (.ite p3 (.const 0) (.const 1))) = st3 at hs3
  have hm3 : st3.maps 0 = { st2a.maps 0 with layers := [⟨[⟨.const 0, .const 3, .lit true⟩, ⟨.const 1, .const 8, .lit true⟩],
         ((st1a.maps 0).baseLength.add (.ite p2 (.const 0) (.const 1))).add (.ite p3 (.const 0) (.const 1)), c⟩] } := by
    rw [← hst3d, setMap_same]
    simp [withItemLayer, flattens, hl3', E.symbolic]
  have hv2 : (st2.maps 0).version = 1 := by rw [hm2]; rfl
  have hv3 : (st3.maps 0).version = 1 := by rw [hm3]; rfl
  have hsk : skip (st3.maps 0) (some 1) = 0 := by rw [hm3]; rfl
  have hg4 := get_hit 0 st3 0 (some 1) (.const 1) none (.lit true) ⟨.const 1, .const 8, .lit true⟩
    (by
      rw [hsk, List.drop_zero, hm3]
      show isEmpty (((st1a.maps 0).baseLength.add _).add _) = false
      rw [hbl2']; simp [isEmpty, E.add, E.symbolic])
    (by
      apply exactMatch_hit
      rw [hsk, List.drop_zero, hm3]
      simp [known])
  refine ⟨start, st2, st3, _, fun _ => world9, env9 1 1, ρ3, _, hB, hs2, hU2.agree, hU2.describes, ?_, hs3, by rw [hv2, hv3], by rw [hv2]; exact hg4, fun _ => rfl, ρ4, ?_⟩
  · unfold State.contentAt
    rw [hm2]
    rfl
  · show sat st3.constraints ρ4
    rw [← hst3d]
    exact hr3.describes.sat

/-- C25, for `MapGet`, and what is read in the meantime restricted as for C23. The invariant is frozen in a state `st` and
evaluated, for any item and any condition that holds, after any such program. The result is the value that the
map had in the version that was the newest in `st`, if it had the key. What is missing: presence without a value, for which
it is false (`C25_has_reads_newest`), and expected values that are not the right ones, for which it is false
(`C22_hint_unsound`). -/
theorem C25_frozen_get_partial (fuel : Nat) (W : Nat → Contents) (st : State) (ρ : Env) (p : Prog) (obj : Nat) (h : Describes st W ρ)
    (hc : p.Clean (fuel + 1) W st ρ) (ha : p.Apart (fuel + 1) W obj (st.maps obj).version st ρ) :
    ∃ st' ρ', p.run (fuel + 1) st = some st' ∧ Agree st.next ρ ρ' ∧ Describes st' W ρ' ∧
      ∀ (k : IE) (item : Item) (cond : B), k.pure st.next → item.within st.next → cond.within st.next → cond.den ρ = true →
        ∀ key, key = k.sem noMaps ρ (item.key.den ρ) (item.value.den ρ) (item.present.den ρ) →
        (st.contentAt W ρ obj none key).2 = true →
        ∃ e st'' ρ'', evalE (get (fuel + 1)) item cond st' (freezeE st (.mapGet obj k none)) = some (e, st'') ∧
          Agree st.next ρ ρ'' ∧ Describes st'' W ρ'' ∧ e.den ρ'' = (st.contentAt W ρ obj none key).1 := by
  have hk0 : Keeps W obj (st.maps obj).version (st.maps obj).layers st ρ := by
    refine ⟨Nat.le_refl _, ?_, ?_⟩
    · rw [show (st.maps obj).layers.length - (st.maps obj).version = 0 from Nat.sub_self _]; exact (h.maps obj).base
    · rw [show (st.maps obj).layers.length - (st.maps obj).version = 0 from Nat.sub_self _]; rfl
  obtain ⟨st', ρ', h1, h2, h3, h4, h5⟩ := prog_keeps fuel W obj _ _ p st ρ h hc ha hk0
  refine ⟨st', ρ', h1, h2, h4, fun k item cond hk hi hcw hct key hkey hpres => ?_⟩
  have hi' : item.within st'.next := ⟨E.within_mono h3 _ hi.1, E.within_mono h3 _ hi.2.1, B.within_mono h3 _ hi.2.2⟩
  obtain ⟨ke, hke, hkw, hkd⟩ := evalE_pure (get (fuel + 1)) item cond st' hi (Nat.le_refl _) k hk
  have hkey' : ke.den ρ' = key := by
    rw [← E.den_congr h2 _ hkw, hkd, hkey]
  have hcont : st'.contentAt W ρ' obj (some (st.maps obj).version) key = st.contentAt W ρ obj none key := by
    unfold State.contentAt
    show content ρ' (W obj) ((st'.maps obj).layers.drop ((st'.maps obj).layers.length - (st.maps obj).version)) _ = content ρ (W obj) ((st.maps obj).layers.drop 0) _
    rw [h5.same.content, List.drop_zero, content_congr h2 _ fun l hl => ((h.maps obj).within.layers l hl).2]
  obtain ⟨r, st'', ρ'', hg, hr⟩ := get_read fuel h4 obj (some (st.maps obj).version) (key := ke) (hint := none) (cond := cond)
    (E.within_mono h3 _ hkw) (by simp) (B.within_mono h3 _ hcw) h5.base (by simp)
  have hct' : cond.den ρ' = true := by rw [← B.den_congr h2 _ hcw]; exact hct
  refine ⟨r.1, st'', ρ'', ?_, h2.trans hr.agree h3, hr.describes, ?_⟩
  · simp only [freezeE, freezeE_pure st k hk, evalE, hke, hg]
  · rw [hr.value hct' (by rw [hkey', hcont]; exact hpres), hkey', hcont]

/-- C25, for `MapHas` with a value, where the map had the key with that value: the result is true, and no world is lost. -/
theorem C25_frozen_has_partial (fuel : Nat) (W : Nat → Contents) (st : State) (ρ : Env) (p : Prog) (obj : Nat) (h : Describes st W ρ)
    (hc : p.Clean (fuel + 1) W st ρ) (ha : p.Apart (fuel + 1) W obj (st.maps obj).version st ρ) :
    ∃ st' ρ', p.run (fuel + 1) st = some st' ∧ Agree st.next ρ ρ' ∧ Describes st' W ρ' ∧
      ∀ (k v : IE) (item : Item) (cond : B), k.pure st.next → v.pure st.next → item.within st.next → cond.within st.next → cond.den ρ = true →
        st.contentAt W ρ obj none (k.sem noMaps ρ (item.key.den ρ) (item.value.den ρ) (item.present.den ρ)) =
          (v.sem noMaps ρ (item.key.den ρ) (item.value.den ρ) (item.present.den ρ), true) →
        ∃ e st'' ρ'', evalB (get (fuel + 1)) item cond st' (freezeB st (.mapHasValue obj k v none)) = some (e, st'') ∧
          Agree st.next ρ ρ'' ∧ Describes st'' W ρ'' ∧ e.den ρ'' = true := by
  have hk0 : Keeps W obj (st.maps obj).version (st.maps obj).layers st ρ := by
    refine ⟨Nat.le_refl _, ?_, ?_⟩
    · rw [show (st.maps obj).layers.length - (st.maps obj).version = 0 from Nat.sub_self _]; exact (h.maps obj).base
    · rw [show (st.maps obj).layers.length - (st.maps obj).version = 0 from Nat.sub_self _]; rfl
  obtain ⟨st', ρ', h1, h2, h3, h4, h5⟩ := prog_keeps fuel W obj _ _ p st ρ h hc ha hk0
  refine ⟨st', ρ', h1, h2, h4, fun k v item cond hk hv hi hcw hct hpres => ?_⟩
  obtain ⟨ke, hke, hkw, hkd⟩ := evalE_pure (get (fuel + 1)) item cond st' hi (Nat.le_refl _) k hk
  obtain ⟨ve, hve, hvw, hvd⟩ := evalE_pure (get (fuel + 1)) item cond st' hi (Nat.le_refl _) v hv
  rw [← hkd, ← hvd] at hpres
  have hcont : st'.contentAt W ρ' obj (some (st.maps obj).version) (ke.den ρ') = (ve.den ρ', true) := by
    rw [← E.den_congr h2 _ hkw, ← E.den_congr h2 _ hvw, ← hpres]
    unfold State.contentAt
    show content ρ' (W obj) ((st'.maps obj).layers.drop ((st'.maps obj).layers.length - (st.maps obj).version)) _ = content ρ (W obj) ((st.maps obj).layers.drop 0) _
    rw [h5.same.content, List.drop_zero, content_congr h2 _ fun l hl => ((h.maps obj).within.layers l hl).2]
  obtain ⟨r, st'', ρ'', hg, hr⟩ := get_read fuel h4 obj (some (st.maps obj).version) (key := ke) (hint := some ve) (cond := cond)
    (E.within_mono h3 _ hkw) (by intro e he; rw [← Option.some.inj he]; exact E.within_mono h3 _ hvw) (B.within_mono h3 _ hcw) h5.base
    (by intro _ e he; rw [← Option.some.inj he, hcont])
  have hct' : cond.den ρ' = true := by rw [← B.den_congr h2 _ hcw]; exact hct
  refine ⟨.and r.2 (r.1.eq ve), st'', ρ'', ?_, h2.trans hr.agree h3, hr.describes, ?_⟩
  · simp only [freezeB, freezeE_pure st k hk, freezeE_pure st v hv, evalB, hke, hve, hg]
  · have h6 := hr.present hct'
    have h7 := hr.value hct' (by rw [hcont])
    rw [hcont] at h6 h7
    simp only [B.den, den_eq, Bool.and_eq_true, beq_iff_eq]
    refine ⟨h6, h7.trans ?_⟩
    exact E.den_congr hr.agree _ (E.within_mono h3 _ hvw)

/-- `C23_old_version_partial`, `C25_frozen_get_partial` and `C25_frozen_has_partial` apply: the map has key 1 with
value 9, which is then set to 5. -/
example : (Prog.set 0 (.var 0) (.const 5) .done).Clean 1 (fun _ => world9) start (env9 1 3) ∧
    (Prog.set 0 (.var 0) (.const 5) .done).Apart 1 (fun _ => world9) 0 (start.maps 0).version start (env9 1 3) ∧
    start.contentAt (fun _ => world9) (env9 1 3) 0 none ((IE.lift (.var 0)).sem noMaps (env9 1 3) 0 0 true) = ((IE.lift (.const 9)).sem noMaps (env9 1 3) 0 0 true, true) :=
  ⟨⟨by simp [start, E.within], trivial, by simp [start, E.den, env9], rfl, room9, fun _ _ _ _ _ => trivial⟩,
    ⟨fun _ => by simp [start, Untouched], fun _ _ _ _ _ => trivial⟩, rfl⟩

/-- C25 is false for `MapHas` without a value. A map lacks a key when the invariant is frozen; the key is then set.
Evaluating the invariant yields that the map has the key, in every assignment, because the version is not used. -/
theorem C25_has_reads_newest : ∃ (st st1 st2 : State) (W : Nat → Contents) (ρ : Env) (K : E) (b : B), Describes st W ρ ∧
    (st.contentAt W ρ 0 none (K.den ρ)).2 = false ∧ set 1 st 0 K (.const 5) = some st1 ∧
    (∀ item, evalB (get 1) item (.lit true) st1 (freezeB st (.mapHas 0 (.lift K) none)) = some (b, st2)) ∧ (∀ ρ', b.den ρ' = true) ∧
    ∃ ρ', Agree st.next ρ ρ' ∧ sat st2.constraints ρ' := by
  have hA := start_world9 1 3
  obtain ⟨st1, hg1, -, -, -, hn1, -, hb1, hl1, hu1, hi1, hbl1, -⟩ := get_miss 0 start 0 none (.var 1) none (.lit true) rfl
    (exactMatch_none (ρ := env9 1 3) hA.sat (by
      intro i hi; simp only [start, known, skip, List.drop_zero, List.nil_append, List.mem_singleton] at hi; subst hi; simp) (by
      intro _ i hi; simp only [start, known, skip, List.drop_zero, List.nil_append, List.mem_singleton] at hi; subst hi; simp [E.den, env9]))
    (by simp [start, E.within]) (by simp [start, IB.pure, B.within])
  obtain ⟨_, _, ρ1, hg1', hr1⟩ := get_read 0 hA 0 none (key := .var 1) (hint := none) (cond := .lit true) (by simp [start, E.within]) (by simp) trivial
    (hA.maps 0).base (by simp)
  rw [hg1] at hg1'
  obtain ⟨rfl, rfl⟩ := Prod.mk.inj (Option.some.inj hg1')
  obtain ⟨p, hp, -⟩ := constantOr_some hr1.describes.sat hr1.within.2
  have hset := set_of_get (value := .const 5) hg1 hp
  have hl1' : (st1.maps 0).layers = [] := by rw [hl1 rfl]; rfl
  have hb1' : (st1.maps 0).base = [⟨.var 1, .var 5, .var 5⟩] := hb1
  have hbl1' : (st1.maps 0).baseLength = .var 4 := hbl1
  generalize hst2 : st1.setMap 0 (withItemLayer (st1.maps 0) ⟨.var 1, .const 5, .lit true⟩ (.ite p (.const 0) (.const 1))) = st2 at hset
  have hm2 : st2.maps 0 = { st1.maps 0 with layers := [⟨[⟨.var 1, .const 5, .lit true⟩], (st1.maps 0).baseLength.add (.ite p (.const 0) (.const 1)), (0, [])⟩] } := by
    rw [← hst2, setMap_same]
    simp [withItemLayer, flattens, hl1', lengthOf]
  have hg2 := get_hit 0 st2 0 none (.var 1) none (.lit true) ⟨.var 1, .const 5, .lit true⟩ (by
      rw [hm2]
      show isEmpty ((st1.maps 0).baseLength.add _) = false
      rw [hbl1']; simp [isEmpty, E.add, E.symbolic]) (by
    apply exactMatch_hit
    rw [show skip (st2.maps 0) none = 0 from rfl, List.drop_zero, hm2]
    simp [known])
  generalize hst3 : st2.setMap 0 ((st2.maps 0).setLower (skip (st2.maps 0) none) (known (st2.maps 0).base ((st2.maps 0).layers.drop (skip (st2.maps 0) none))).2) = st3 at hg2
  refine ⟨start, st2, st3, fun _ => world9, env9 1 3, .var 1, .lit true, hA, rfl, hset, fun item => ?_, fun _ => rfl, ρ1, hr1.agree, ?_⟩
  · simp only [freezeB, freezeE, evalB, evalE]
    rw [hg2]
  · rw [← hst3]
    show sat st2.constraints ρ1
    rw [← hst2]
    exact hr1.describes.sat

end Verif.Props
