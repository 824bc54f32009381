/-
Invariant inference: what is false of the code (C27, C29), with concrete witnesses.
-/
import Verif.Props.Infer
import Verif.Props.GhostMapEval

set_option autoImplicit false

namespace Verif.Props

open Verif.Tool.GhostMap

namespace InferFlattened

/-- A program run for every packet: key 1 is set to 1 if it is absent and to 2 if it is present. -/
def handler : Prog := .get 0 (.const 1) fun _ present => .set 0 (.const 1) (.ite present (.const 2) (.const 1)) .done

/-- What it does. -/
def handle (M : Maps) : Maps := M.put 0 1 (some (if (M 0 1).isSome then 2 else 1))

def first : Item := ⟨.const 0, .const 5, .lit true⟩
def len1 : E := (E.const 0).add (.ite (.lit false) (.const 0) (.const 1))
def layer : Layer := ⟨[first], len1, (0, [])⟩

/-- After initialization, which has set key 0 to 5. -/
def initial : State := ⟨[.not (.var 0)], 3, fun o => if o = 0 then ⟨[.not .present], [], .const 0, ⟨.var 0, .var 1, .var 0⟩, [layer]⟩ else ⟨[.not .present], [], .const 0, ⟨.var 0, .var 1, .var 0⟩, []⟩⟩

theorem initial_map : initial.maps 0 = ⟨[.not .present], [], .const 0, ⟨.var 0, .var 1, .var 0⟩, [layer]⟩ := rfl

theorem initial_set : Tool.GhostMap.set 1 InferExample.start 0 (.const 0) (.const 5) = some initial := by
  have hg : Tool.GhostMap.get 1 InferExample.start 0 none (.const 0) none (.lit true) = some ((.var 2, .lit false), { InferExample.start with next := 3 }) := by
    unfold Tool.GhostMap.get
    rfl
  have hp : constantOr InferExample.start.constraints (.lit false) = some (.lit false) := by
    have h1 : definitely InferExample.start.constraints (.lit false) = false := by
      unfold definitely
      simp only [decide_eq_false_iff_not, not_forall]
      exact ⟨InferExample.env, by simp [sat, InferExample.start, B.den, InferExample.env], by simp [B.den]⟩
    have h2 : definitely InferExample.start.constraints (.not (.lit false)) = true := by
      unfold definitely
      simp [B.den]
    unfold constantOr
    simp [h1, h2]
  rw [set_of_get (p := .lit false) hg hp]
  simp [initial, InferExample.start, State.setMap, withItemLayer, flattens, layer, first, len1, lengthOf]

def env : Env := ⟨fun i => if i = 0 then 7 else 0, fun _ => false⟩
def world : Nat → Contents := fun _ _ => (0, false)

theorem initial_describes : Describes initial world env := by
  refine ⟨by simp [initial, sat, B.den, env], by simp [initial, B.within], fun o => ?_⟩
  by_cases ho : o = 0
  · subst ho
    rw [initial_map]
    refine ⟨⟨by simp, trivial, ⟨?_, ?_, ?_⟩, ?_, by simp [IB.pure]⟩, by simp [CacheOk, layer, items, transform], by simp [layer], by simp [BaseOk], ?_, rfl, ?_, by simp [IB.sem, world], ?_⟩
    · show 0 < 3; omega
    · show 1 < 3; omega
    · show 0 < 3; omega
    · simp [layer, first, len1, E.add, E.within, B.within, Item.within]
    · simp [Untouched, layer, first, E.den, env]
    · simp [world]
    · intro d
      rcases d with _ | d
      · refine ⟨{0}, ?_, ?_, by simp⟩
        · intro k
          simp only [List.drop_zero, content, override, layer, first, List.find?_singleton, E.den, Finset.mem_singleton]
          by_cases hk : k = 0
          · subst hk; simp [B.den]
          · simp [hk, Ne.symm hk, world]
        · simp [lengthOf, layer, len1, E.add, E.den, B.den]
      · refine ⟨∅, ?_, ?_, by simp⟩
        · simp [content, world]
        · simp [lengthOf, E.den]
  · have : initial.maps o = InferExample.start.maps o := by simp [initial, InferExample.start, ho]
    rw [this]
    have := (InferExample.start_describes world env rfl (fun _ _ => rfl) (fun _ => rfl)).maps o
    exact this.congr (by decide) (fun _ _ => ⟨rfl, rfl⟩)

/-- The one result of the first iteration. -/
theorem result : ∃ r, handler.run 1 initial = some r ∧ (r.maps 0).version = 1 ∧ (∀ ρ, sat r.constraints ρ → ∀ W, r.maps' W ρ 0 1 = some 1) := by
  obtain ⟨st1, hg1, -, hcs1, -, hn1, -, hb1, hl1, hu1, hi1, hbl1, hinv1⟩ := get_miss 0 initial 0 none (.const 1) none (.lit true)
    (by rfl)
    (by
      refine exactMatch_none initial_describes.sat ?_ (by simp [E.symbolic])
      intro i hi
      have hi' : i = first ∨ i = ⟨.var 0, .var 1, .var 0⟩ := by simpa [initial_map, skip, known, layer] using hi
      rcases hi' with rfl | rfl <;> simp [first])
    trivial (by simp [initial, IB.pure])
  obtain ⟨_, _, ρ1, hg1', hr1⟩ := get_read 0 initial_describes 0 none (key := .const 1) (hint := none) (cond := .lit true) trivial (by simp) trivial
    (initial_describes.maps 0).base (by simp)
  rw [hg1] at hg1'
  obtain ⟨rfl, rfl⟩ := Prod.mk.inj (Option.some.inj hg1')
  have hb1' : (st1.maps 0).base = [⟨.const 1, .var 3, .var 3⟩] := hb1
  have hl1' : (st1.maps 0).layers = [⟨[first], len1, (1, [⟨.const 1, .ite ((E.const 1).eq (.const 0)) (.const 5) (.var 3), .ite ((E.const 1).eq (.const 0)) (.lit true) (.var 3)⟩])⟩] := by
    rw [hl1 rfl]
    simp [known, layer, transform, first, iteE, iteB, initial]
  have hk1 : known (st1.maps 0).base (st1.maps 0).layers = ([first, ⟨.const 1, .ite ((E.const 1).eq (.const 0)) (.const 5) (.var 3), .ite ((E.const 1).eq (.const 0)) (.lit true) (.var 3)⟩], (st1.maps 0).layers) := by
    rw [hl1', hb1']
    simp [known]
  have hg2 := get_hit 0 st1 0 none (.const 1) none (.lit true) ⟨.const 1, .ite ((E.const 1).eq (.const 0)) (.const 5) (.var 3), .ite ((E.const 1).eq (.const 0)) (.lit true) (.var 3)⟩
    (by rw [hl1']; rfl)
    (by
      apply exactMatch_hit
      rw [show skip (st1.maps 0) none = 0 from rfl, List.drop_zero, hk1]
      simp [first])
  rw [show skip (st1.maps 0) none = 0 from rfl, List.drop_zero, hk1] at hg2
  obtain ⟨p, hp, -⟩ := constantOr_some (n := 4) (b := .ite ((E.const 1).eq (.const 0)) (.lit true) (.var 3)) hr1.describes.sat (by simp [B.within, E.eq, E.within])
  have hs := set_of_get (value := .ite (.var 3) (.const 2) (.const 1)) hg2 hp
  generalize hst2 : (State.setMap _ 0 (withItemLayer _ _ _) : State) = st2 at hs
  have hlay : st2.maps 0 = { st1.maps 0 with layers := [⟨[first, ⟨.const 1, .ite (.var 3) (.const 2) (.const 1), .lit true⟩], len1.add (.ite p (.const 0) (.const 1)),
      (1, [⟨.const 1, .ite ((E.const 1).eq (.const 0)) (.const 5) (.var 3), .ite ((E.const 1).eq (.const 0)) (.lit true) (.var 3)⟩])⟩] } := by
    rw [← hst2, setMap_same]
    simp [withItemLayer, hl1', flattens, first, E.symbolic, setMap_same, MapS.setLower]
  refine ⟨st2, ?_, ?_, ?_⟩
  · unfold handler Prog.run
    rw [hg1]
    simp only
    unfold Prog.run
    rw [show initial.next = 3 from rfl, hs]
    rfl
  · rw [hlay]
    rfl
  · intro ρ hsat W
    have hx : ρ.bl 3 = false := by
      have := hinv1 ρ (by rw [← hst2] at hsat; exact hsat) (by simp [initial_map, skip, known, layer, first, isUnknown, andAll, B.den, E.eq, E.den]) (.not .present) (by simp [initial])
      simpa [IB.sem, initial] using this
    unfold State.maps' State.contentAt
    rw [hlay]
    simp [skip, content, override, first, E.den, B.den, hx]

end InferFlattened

open InferFlattened in
/-- C27 and C29 are false in general, because of flattening. Initialization sets key 0 of a map to 5; every packet sets key 1 to 1 if it is absent and to 2 if it is present. The update of
key 1 is put into the layer of the first one, so the map is not seen to change, and the loop stops at once: the only states it ever looks at are those after the first packet. What the
second packet leads to is in none of them, and the number of keys, which is taken to be constant, has changed. -/
theorem C27_flattened_lost : ∃ (A R : State) (lens : Nat → Option (List Nat)),
    Describes initial world env ∧ Tool.GhostMap.set 1 InferExample.start 0 (.const 0) (.const 5) = some initial ∧
    fixpointLoop 1 noGuess [0] (fun A => (handler.run 1 A).map fun r => [r]) 1 [initial] (fun _ => none) = some ([A], [R], lens) ∧
    (∀ W ρ, sat R.constraints ρ → R.maps' W ρ ≠ handle (handle (initial.maps' world env))) ∧
    lens 0 = none ∧ {k | (initial.maps' world env 0 k).isSome}.ncard = 1 ∧ {k | (handle (initial.maps' world env) 0 k).isSome}.ncard = 2 := by
  obtain ⟨r, h1, h2, h3⟩ := result
  have hM : ∀ k, initial.maps' world env 0 k = if k = 0 then some 5 else none := by
    intro k
    by_cases hk : k = 0
    · subst hk; rfl
    · simp [State.maps', State.contentAt, initial_map, skip, content, override, layer, first, E.den, world, hk, Ne.symm hk]
  refine ⟨initial, r, fun _ => none, initial_describes, initial_set, ?_, ?_, rfl, ?_, ?_⟩
  · have hrel : relevantObjs [0] initial [r] = [] := by
      simp [relevantObjs, State.version, h2]
      rfl
    unfold fixpointLoop
    simp [exploreAll, allSome, h1, infer, hrel, inferObjs]
  · intro W ρ hs he
    have := h3 ρ hs W
    rw [he] at this
    simp [handle, Maps.put] at this
  · rw [show {k | (initial.maps' world env 0 k).isSome} = {0} by ext k; by_cases hk : k = 0 <;> simp [hM, hk]]
    simp
  · rw [show {k | (handle (initial.maps' world env) 0 k).isSome} = {0, 1} by
      ext k
      simp only [handle, Maps.put, Set.mem_ofPred_eq, Set.mem_insert_iff, Set.mem_singleton_iff, true_and]
      by_cases hk : k = 1
      · simp [hk]
      · by_cases hk0 : k = 0 <;> simp [hM, hk, hk0]]
    exact Set.ncard_pair (by decide)

namespace InferSingle

/-- A program run for every packet: the only element of an array is incremented. -/
def handler : Prog := .get 0 (.const 0) fun v _ => .set 0 (.const 0) (v.add (.const 1)) .done

/-- What it does. -/
def handle (M : Maps) : Maps := M.put 0 0 ((M 0 0).map fun v => (v + 1) % 2 ^ 64)

def inv1 : IB := .iff (.rel (fun x y => decide (x < y)) .key (.lift (.const 1))) .present

/-- After the array is created. -/
def array : State := ⟨[.iff (.rel (fun x y => decide (x < y)) (.var 2) (.const 1)) (.var 2), .not (.var 0)], 4, fun o => if o = 0 then ⟨[inv1], [], .const 1, ⟨.var 2, .var 3, .var 2⟩, []⟩ else
  InferExample.start.maps o⟩

theorem array_map : array.maps 0 = ⟨[inv1], [], .const 1, ⟨.var 2, .var 3, .var 2⟩, []⟩ := rfl

theorem array_new : newArray 1 InferExample.start 0 (.const 1) = some array := by
  unfold newArray addInv applyInv
  simp only [setMap_same, evalB, evalE]
  simp only [Option.some.injEq, array, State.setMap, State.add, InferExample.start, inv1, List.nil_append, List.cons_append, State.mk.injEq, true_and]
  funext o
  by_cases ho : o = 0 <;> simp [ho]

def env : Env := ⟨fun i => if i = 2 then 7 else 0, fun _ => false⟩
def world : Nat → Contents := fun o k => (0, decide (o = 0 ∧ k = 0))

theorem array_describes : Describes array world env := by
  refine ⟨by simp [array, sat, B.den, E.den, env], by simp [array, B.within, E.within], fun o => ?_⟩
  by_cases ho : o = 0
  · subst ho
    rw [array_map]
    refine ⟨⟨by simp, trivial, ⟨?_, ?_, ?_⟩, by simp, by simp [inv1, IB.pure, IE.pure, E.within]⟩, trivial, by simp, by simp [BaseOk], by simp [Untouched], rfl, by simp, ?_, ?_⟩
    · show 2 < 4; omega
    · show 3 < 4; omega
    · show 2 < 4; omega
    · intro inv hinv k _
      simp only [List.mem_singleton] at hinv
      subst hinv
      by_cases hk : k = 0 <;> simp [inv1, IB.sem, IE.sem, E.den, world, hk]
    · intro d
      refine ⟨{0}, ?_, ?_, by simp⟩
      · intro k; simp [content, world]
      · simp [lengthOf, E.den]
  · have : array.maps o = InferExample.start.maps o := by simp [array, ho]
    rw [this]
    have h := (InferExample.start_describes (fun o => if o = 0 then fun _ => (0, false) else world o) env rfl (fun o k => by by_cases ho : o = 0 <;> simp [ho, world])
      (fun o => by by_cases ho : o = 0 <;> simp [ho, world, env])).maps o
    simp only [ho, if_false] at h
    exact h.congr (by decide) (fun _ _ => ⟨rfl, rfl⟩)

theorem constantOr_true {cs : List B} {b : B} {ρ : Env} (hs : sat cs ρ) (h : ∀ ρ, sat cs ρ → b.den ρ = true) : constantOr cs b = some (.lit true) := by
  have h1 : definitely cs b = true := by
    unfold definitely
    rw [@decide_eq_true_iff _ (Classical.propDecidable _)]
    exact h
  have h2 : definitely cs (.not b) = false := by
    unfold definitely
    rw [@decide_eq_false_iff_not _ (Classical.propDecidable _)]
    intro hx
    have := hx ρ hs
    simp [B.den, h ρ hs] at this
  unfold constantOr
  simp [h1, h2]

def first : Item := ⟨.const 0, .const 0, .lit true⟩
def len1 : E := (E.const 1).add (.ite (.lit true) (.const 0) (.const 1))

/-- After its element is set to zero. -/
theorem allocated : ∃ (A : State) (ρ : Env), Tool.GhostMap.set 1 array 0 (.const 0) (.const 0) = some A ∧ Describes A world ρ ∧
    (A.maps 0).layers = [⟨[first], len1, (0, [])⟩] ∧ (A.maps 0).base = [⟨.const 0, .var 4, .var 4⟩] ∧ (A.maps 0).invs = [inv1] := by
  obtain ⟨st1, hg1, -, hcs1, -, hn1, -, hb1, hl1, hu1, hi1, hbl1, hinv1⟩ := get_miss 0 array 0 none (.const 0) none (.lit true)
    (by rfl)
    (by
      refine exactMatch_none array_describes.sat ?_ (by simp [E.symbolic])
      intro i hi
      have hi' : i = ⟨.var 2, .var 3, .var 2⟩ := by simpa [array_map, skip, known] using hi
      subst hi'
      simp)
    trivial (by simp [array_map, inv1, IB.pure, IE.pure, E.within])
  obtain ⟨A, ρ, hs, hU⟩ := set_updated 0 array_describes 0 (key := .const 0) (value := .const 0) trivial trivial
    (by simp [array_map, E.den, env]) (by rw [array_map]; rfl)
    (by
      intro S hS
      have : S ⊆ {0} := by
        intro k hk
        have := (hS k).1 hk
        simpa [State.contentAt, array_map, skip, content, world] using this
      have := Finset.card_le_card this
      simp at this
      omega)
  obtain ⟨_, _, ρ1, hg1', hr1⟩ := get_read 0 array_describes 0 none (key := .const 0) (hint := none) (cond := .lit true) trivial (by simp) trivial
    (array_describes.maps 0).base (by simp)
  rw [hg1] at hg1'
  obtain ⟨rfl, rfl⟩ := Prod.mk.inj (Option.some.inj hg1')
  have hp := constantOr_true (b := .var array.next) hr1.describes.sat (by
    intro ρ hsat
    have := hinv1 ρ hsat (by simp [array_map, skip, known, isUnknown, andAll, B.den]) inv1 (by simp [array_map])
    simpa [inv1, IB.sem, IE.sem, E.den, B.den] using this)
  have hs' := set_of_get (value := .const 0) hg1 hp
  rw [hs] at hs'
  have hA := Option.some.inj hs'
  refine ⟨A, ρ, hs, hU.describes, ?_, ?_, ?_⟩
  · rw [hA, setMap_same]
    have : (st1.maps 0).layers = [] := by rw [hl1 rfl]; simp [array_map, known]
    simp [withItemLayer, flattens, this, first, len1, lengthOf, hbl1, array_map]
  · have hw : ∀ (m : MapS) (i : Item) (c : E), (withItemLayer m i c).base = m.base := by
      intro m i c
      unfold withItemLayer
      split
      · split <;> rfl
      · rfl
    rw [hA, setMap_same, hw, hb1]
    rfl
  · have hw : ∀ (m : MapS) (i : Item) (c : E), (withItemLayer m i c).invs = m.invs := by
      intro m i c
      unfold withItemLayer
      split
      · split <;> rfl
      · rfl
    rw [hA, setMap_same, hw, hi1]
    rfl

/-- The one result of the first iteration. -/
theorem result {A : State} {ρ : Env} (hd : Describes A world ρ) (hl : (A.maps 0).layers = [⟨[first], len1, (0, [])⟩]) (hb : (A.maps 0).base = [⟨.const 0, .var 4, .var 4⟩]) :
    ∃ r, handler.run 1 A = some r ∧ (r.maps 0).version = 2 ∧ (∀ W ρ, r.maps' W ρ 0 0 = some 1) ∧
      setItems (r.maps 0).layers = [⟨.const 0, (E.const 0).add (.const 1), .lit true⟩] ∧ r.length 0 = len1.add (.ite (.lit true) (.const 0) (.const 1)) := by
  have hk : known (A.maps 0).base (A.maps 0).layers = ([first], [⟨[first], len1, (1, [])⟩]) := by
    rw [hl, hb]
    simp [known, transform, first]
  have hg1 := get_hit 0 A 0 none (.const 0) none (.lit true) first (by rw [hl]; rfl)
    (by
      apply exactMatch_hit
      rw [show skip (A.maps 0) none = 0 from rfl, List.drop_zero, hk]
      simp [first])
  rw [show skip (A.maps 0) none = 0 from rfl, List.drop_zero, hk] at hg1
  simp only at hg1
  generalize hst1 : A.setMap 0 ((A.maps 0).setLower 0 [⟨[first], len1, (1, [])⟩]) = st1 at hg1
  have hl1 : (st1.maps 0).layers = [⟨[first], len1, (1, [])⟩] := by rw [← hst1, setMap_same]; rfl
  have hb1 : (st1.maps 0).base = [⟨.const 0, .var 4, .var 4⟩] := by rw [← hst1, setMap_same]; exact hb
  have hk1 : known (st1.maps 0).base (st1.maps 0).layers = ([first], [⟨[first], len1, (1, [])⟩]) := by
    rw [hl1, hb1]
    simp [known]
  have hg2 := get_hit 0 st1 0 none (.const 0) none (.lit true) first (by rw [hl1]; rfl)
    (by
      apply exactMatch_hit
      rw [show skip (st1.maps 0) none = 0 from rfl, List.drop_zero, hk1]
      simp [first])
  have hp := constantOr_true (cs := A.constraints) (b := .lit true) hd.sat (fun _ _ => rfl)
  have hs := set_of_get (value := (E.const 0).add (.const 1)) (p := .lit true) hg2 (by rw [← hst1]; exact hp)
  rw [show skip (st1.maps 0) none = 0 from rfl, List.drop_zero, hk1] at hs
  generalize hst2 : (State.setMap _ 0 (withItemLayer _ _ _) : State) = st2 at hs
  have hlay : (st2.maps 0).layers = [⟨[⟨.const 0, (E.const 0).add (.const 1), .lit true⟩], len1.add (.ite (.lit true) (.const 0) (.const 1)), (0, [])⟩, ⟨[first], len1, (1, [])⟩] := by
    rw [← hst2, setMap_same]
    simp [withItemLayer, flattens, first, E.symbolic, setMap_same, MapS.setLower, lengthOf]
  refine ⟨st2, ?_, ?_, ?_, ?_, ?_⟩
  · unfold handler Prog.run
    rw [hg1]
    simp only
    unfold Prog.run
    rw [show first.value = .const 0 from rfl, hs]
    rfl
  · unfold MapS.version
    rw [hlay]
    rfl
  · intro W ρ
    unfold State.maps' State.contentAt
    rw [hlay]
    simp [skip, content, override, E.den, B.den, E.add]
  · rw [hlay]
    simp [setItems, transform, first]
  · unfold State.length
    rw [hlay]
    rfl

end InferSingle

open InferSingle in
/-- C27 is false in general for arrays of one element, such as `os_memory_alloc(1, size)` (heap.py:38-39), whose element is set during initialization. Every packet increments the element. The only thing
the loop checks about the update is that it is of the one index that exists, so it stops at once: the only states it ever looks at are those after the first packet, where the element is 1. After two
packets it is 2. -/
theorem C27_single_element_lost : ∃ (A0 : State) (ρ0 : Env) (A R : State) (lens : Nat → Option (List Nat)),
    newArray 1 InferExample.start 0 (.const 1) = some array ∧ Tool.GhostMap.set 1 array 0 (.const 0) (.const 0) = some A0 ∧ Describes A0 world ρ0 ∧ A0.maps' world ρ0 0 0 = some 0 ∧
    fixpointLoop 1 noGuess [0] (fun A => (handler.run 1 A).map fun r => [r]) 1 [A0] (fun _ => none) = some ([A], [R], lens) ∧
    (∀ W ρ, R.maps' W ρ 0 0 = some 1) ∧ handle (handle (A0.maps' world ρ0)) 0 0 = some 2 := by
  obtain ⟨A0, ρ0, h1, h2, h3, h4, h5⟩ := allocated
  obtain ⟨r, g1, g2, g3, g4, g5⟩ := result h2 h3 h4
  have hM : A0.maps' world ρ0 0 0 = some 0 := by
    unfold State.maps' State.contentAt
    rw [h3]
    rfl
  refine ⟨A0, ρ0, A0, r, fun _ => none, array_new, h1, h2, hM, ?_, g3, by simp [handle, Maps.put, hM]⟩
  have hi : infer 1 noGuess [0] [A0] [r] (fun _ => none) = some .fixpoint := by
    refine (C28_stops_partial _ _ _ _ _ _ _ _ ?_).2 ?_
    · intro obj hobj c hc
      simp only [List.mem_singleton] at hobj
      subst hobj
      rw [h5, List.mem_singleton] at hc
      subst hc
      simp [inv1, IB.still, IE.still]
    · intro obj hobj _
      simp only [List.mem_singleton] at hobj
      subst hobj
      refine ⟨?_, ?_, by simp⟩
      · intro c hc st hst i hi M ρ _ _
        rw [h5, List.mem_singleton] at hc
        subst hc
        simp only [List.mem_singleton] at hst
        subst hst
        rw [g4, List.mem_singleton] at hi
        subst hi
        simp [inv1, IB.sem, IE.sem, E.den]
      · intro _ st hst ρ _
        simp only [List.mem_singleton] at hst
        subst hst
        rw [g5]
        unfold State.length
        rw [h3]
        simp [lengthOf, len1, E.add, E.den, B.den]
  unfold fixpointLoop
  simp [exploreAll, allSome, g1, hi]

namespace InferCross

/-- Everything in map 0 is in map 1, as an iteration may have inferred (ghostmaps.py:829-843), and nothing else is known. -/
def inv : IB := iimplies .present (.mapHas 1 .key none)

def state : State := ⟨[], 5, fun o => if o = 0 then ⟨[inv], [], .var 4, ⟨.var 0, .var 1, .var 0⟩, []⟩ else ⟨[.lift (.lit true)], [], .var 4, ⟨.var 2, .var 3, .var 2⟩, []⟩⟩

theorem state_map : state.maps 1 = ⟨[.lift (.lit true)], [], .var 4, ⟨.var 2, .var 3, .var 2⟩, []⟩ := rfl

/-- Both maps hold key 5. -/
def world : Nat → Contents := fun _ k => (1, decide (k = 5))

def env : Env := ⟨fun i => if i = 4 then 1 else if i = 5 then 1 else 0, fun i => decide (i = 5)⟩

end InferCross

open InferCross in
/-- C27 is false in general for invariants that read other maps. It was inferred that everything in map 0 is in map 1. A packet removes key 5 from map 1 alone. Only invariants of maps that
change are checked, and map 0 does not, so the loop stops, though the invariant does not hold after that packet. -/
theorem C27_cross_map_lost : ∃ (A r : State) (W : Nat → Contents) (ρ : Env),
    (A.maps 0).invs = [iimplies .present (.mapHas 1 .key none)] ∧ Tool.GhostMap.remove 1 A 1 (.const 5) = some r ∧
    infer 1 noGuess [0, 1] [A] [r] (fun _ => some []) = some .fixpoint ∧
    sat A.constraints ρ ∧ (∀ k, (A.maps' W ρ 0 k).isSome → (A.maps' W ρ 1 k).isSome) ∧
    sat r.constraints ρ ∧ (r.maps' W ρ 0 5).isSome ∧ r.maps' W ρ 1 5 = none := by
  obtain ⟨st1, hg1, -, -, -, hn1, ho1, hb1, hl1, hu1, hi1, hbl1, -⟩ := get_miss 0 state 1 none (.const 5) none (.lit true)
    (by rfl)
    (by
      refine exactMatch_none (ρ := env) (by simp [sat, state]) ?_ (by simp [E.symbolic])
      intro i hi
      have hi' : i = ⟨.var 2, .var 3, .var 2⟩ := by simpa [state_map, skip, known] using hi
      subst hi'
      simp)
    trivial (by simp [state_map, IB.pure, B.within])
  have hsat := get_miss_sat 0 state st1 1 none (.const 5) none (.lit true) _ rfl rfl
    (by
      refine exactMatch_none (ρ := env) (by simp [sat, state]) ?_ (by simp [E.symbolic])
      intro i hi
      have hi' : i = ⟨.var 2, .var 3, .var 2⟩ := by simpa [state_map] using hi
      subst hi'
      simp)
    trivial (by simp [state_map, IB.pure, B.within]) hg1 env (by simp [sat, state]) (by simp [hintConstraint])
    (by simp [state_map, sameAs, implies, B.den, E.eq, E.den, env])
    (by simp [state_map, IB.sem, B.den])
    (by simp [state, knownLength, E.le, E.add, andAll, B.den, E.den, env])
  have hl1' : (st1.maps 1).layers = [] := by rw [hl1 rfl]; simp [state_map, known]
  have hrem : Tool.GhostMap.remove 1 state 1 (.const 5) = some ({ st1 with next := st1.next + 1 }.setMap 1
      { st1.maps 1 with layers := [⟨[⟨.const 5, .var st1.next, .lit false⟩], (st1.maps 1).baseLength.add (.ite (.var 5) (.const (2 ^ 64 - 1)) (.const 0)), (0, [])⟩] }) := by
    unfold Tool.GhostMap.remove
    rw [hg1]
    simp [withItemLayer, flattens, hl1', lengthOf, state]
  generalize hr : ({ st1 with next := st1.next + 1 }.setMap 1
      { st1.maps 1 with layers := [⟨[⟨.const 5, .var st1.next, .lit false⟩], (st1.maps 1).baseLength.add (.ite (.var 5) (.const (2 ^ 64 - 1)) (.const 0)), (0, [])⟩] } : State) = r at hrem
  have hm1 : (r.maps 1).layers = [⟨[⟨.const 5, .var st1.next, .lit false⟩], (st1.maps 1).baseLength.add (.ite (.var 5) (.const (2 ^ 64 - 1)) (.const 0)), (0, [])⟩] := by
    rw [← hr, setMap_same]
  have hm0 : r.maps 0 = state.maps 0 := by
    rw [← hr, ← ho1 0 (by decide)]
    simp [State.setMap]
  have hrel : relevantObjs [0, 1] state [r] = [1] := by
    simp [relevantObjs, State.version, hm0, MapS.version, hm1, state_map]
  refine ⟨state, r, world, env, rfl, hrem, ?_, by simp [sat, state], ?_, ?_, ?_, ?_⟩
  · obtain ⟨f, hf, hc⟩ := (inferObj_unchanged (fuel := 1) (guess := noGuess) (relevant := [1]) (vars := getVariables [0, 1] [state]) (anc := state) (prev := fun _ => some []) (sts := [r]) (obj := 1)
      (by simp [state_map, IB.still])).2 ⟨by
        intro c hc st hst i hi
        simp only [state_map, List.mem_singleton] at hc
        subst hc
        intro M ρ _ _
        simp [IB.sem, B.den], by simp [LengthKept]⟩
    simp [infer, hrel, inferObjs, hf, hc]
  · intro k hk
    simpa [State.maps', State.contentAt, skip, state, content, world] using hk
  · rw [← hr]
    exact hsat
  · simp [State.maps', State.contentAt, skip, hm0, state, content, world]
  · simp [State.maps', State.contentAt, skip, hm1, content, override, E.den, B.den]

end Verif.Props
