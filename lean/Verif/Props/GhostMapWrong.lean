/-
Ghost maps: what is false of the code (C19, C20, C22, C23, C24), with concrete witnesses, and examples for
the theorems that hold.
-/
import Verif.Props.GhostMapEval

set_option autoImplicit false

namespace Verif.Props

open Verif.Tool.GhostMap

/-- The world where every map holds just key 1 with value 9. -/
def world9 : Contents := fun k => if k = 1 then (9, true) else (0, false)

/-- An assignment of the symbols of `start`: two keys, the unknown key 7 (which is absent), and length 1. -/
def env9 (k1 k2 : Nat) : Env := ⟨fun i => if i = 0 then k1 else if i = 1 then k2 else if i = 2 then 7 else if i = 4 then 1 else 0, fun _ => false⟩

theorem start_world9 (k1 k2 : Nat) : Describes start (fun _ => world9) (env9 k1 k2) := by
  refine start_describes {1} (fun k => ?_) rfl (by simp) rfl
  unfold world9
  by_cases h : k = 1 <;> simp [h]

theorem room9 : HasRoom world9 := by
  intro S hS
  have : S ⊆ {1} := by
    intro k hk
    have := (hS k).1 hk
    unfold world9 at this
    by_cases h : k = 1
    · simp [h]
    · simp [h] at this
  have := Finset.card_le_card this
  simp at this
  omega

/-- `C19_get_partial` applies to a map with content. -/
example : ∃ (st : State) (W : Nat → Contents) (ρ : Env) (obj : Nat) (key : E), Describes st W ρ ∧ key.within st.next ∧ st.contentAt W ρ obj none (key.den ρ) = (9, true) :=
  ⟨start, _, _, 0, .var 0, start_world9 1 3, by simp [start, E.within], rfl⟩

/-- `C20_program_partial` applies: read key 1, set it, read key 3 and remove it. -/
example : (Prog.get 0 (.var 0) fun v _ => .set 0 (.var 0) v .done).Clean 1 (fun _ => world9) start (env9 1 3) := by
  refine ⟨by simp [start, E.within], fun r st' ρ' hg ha hd => ?_⟩
  obtain ⟨r1, st1, ρ1, hg1, hr1⟩ := get_read 0 (start_world9 1 3) 0 none (key := .var 0) (hint := none) (cond := .lit true) (by simp [start, E.within]) (by simp) trivial
    ((start_world9 1 3).maps 0).base (by simp)
  rw [hg1] at hg
  obtain ⟨rfl, rfl⟩ : r1 = r ∧ st1 = st' := by simpa using hg
  refine ⟨E.within_mono hr1.next _ (by simp [start, E.within]), hr1.within.1, ?_, ?_, ?_, fun _ _ _ _ _ => trivial⟩
  · rw [hr1.unknown 0]
    show ρ'.bv 0 ≠ ρ'.bv 2
    rw [← (ha 0 (by simp [start])).1, ← (ha 2 (by simp [start])).1]
    simp [env9]
  · rw [flattens_same (hr1.layers 0)]; rfl
  · rw [contentAt_congr (start_world9 1 3) ha (hr1.layers 0)]
    exact room9

/-- C23 is false in general. A map is updated at one key and the new version is then read at another key;
when both keys are the same, a read of the old version at that key returns the value of the update. Here
the old contents are 9 and the update is 5: in every assignment that extends the given one and satisfies
the constraints the read of the old version yields 5, and there are such assignments. -/
theorem C23_old_version_wrong : ∃ (st st1 st2 st3 : State) (W : Nat → Contents) (ρ : Env) (K1 K2 : E) (r r0 : E × B),
    Describes st W ρ ∧ K1.den ρ = 1 ∧ K2.den ρ = 1 ∧ st.contentAt W ρ 0 (some 0) 1 = (9, true) ∧
    set 1 st 0 K1 (.const 5) = some st1 ∧ get 1 st1 0 none K2 none (.lit true) = some (r, st2) ∧
    get 1 st2 0 (some 0) K2 none (.lit true) = some (r0, st3) ∧
    (∀ ρ', Agree st.next ρ ρ' → sat st3.constraints ρ' → r0.1.den ρ' = 5) ∧ ∃ ρ', Agree st.next ρ ρ' ∧ sat st3.constraints ρ' := by
  -- an assignment where the keys differ
  have hA := start_world9 1 3
  have hB := start_world9 1 1
  -- the first read finds nothing
  obtain ⟨st1, hg1, -, hcs1, -, hn1, -, hb1, hl1, hu1, hi1, hbl1, -⟩ := get_miss 0 start 0 none (.var 0) none (.lit true) rfl
    (by
      refine exactMatch_none (ρ := env9 1 3) hA.sat ?_ ?_
      · intro i hi; simp only [start, known, skip, List.drop_zero, List.nil_append, List.mem_singleton] at hi; subst hi; simp
      · intro _ i hi; simp only [start, known, skip, List.drop_zero, List.nil_append, List.mem_singleton] at hi; subst hi; simp [E.den, env9])
    (by simp [start, E.within]) (by simp [start, IB.pure, B.within])
  obtain ⟨stA, ρA, hsA, hUA⟩ := set_updated 0 hA 0 (key := .var 0) (value := .const 5) (by simp [start, E.within]) trivial (by simp [start, E.den, env9]) rfl room9
  obtain ⟨stB, ρB, hsB, hUB⟩ := set_updated 0 hB 0 (key := .var 0) (value := .const 5) (by simp [start, E.within]) trivial (by simp [start, E.den, env9]) rfl room9
  rw [Nat.zero_add] at hsA hsB
  rw [hsA] at hsB
  obtain rfl : stA = stB := by simpa using hsB
  -- the updated state
  have hset := hsA
  unfold Verif.Tool.GhostMap.set at hset
  rw [Nat.zero_add] at hg1
  rw [hg1] at hset
  simp only at hset
  split at hset
  · simp at hset
  rename_i p hp
  simp only [Option.some.injEq] at hset
  have hlay1 : (st1.maps 0).layers = [] := by rw [hl1 rfl]; rfl
  have hm : stA.maps 0 = { st1.maps 0 with layers := [⟨[⟨.var 0, .const 5, .lit true⟩], (lengthOf (st1.maps 0) (st1.maps 0).layers).add (.ite p (.const 0) (.const 1)), (0, [])⟩] } := by
    rw [← hset, setMap_same]
    simp [withItemLayer, flattens, hlay1]
  have hcsA : stA.constraints = st1.constraints := by rw [← hset]; rfl
  have hnA : stA.next = 6 := by rw [← hset]; exact hn1
  have hbA : (stA.maps 0).base = [⟨.var 0, .var 5, .var 5⟩] := by rw [hm]; exact hb1
  have hkA : (known (stA.maps 0).base (stA.maps 0).layers).1 = [⟨.var 0, .const 5, .lit true⟩] := by
    rw [hbA, hm]
    simp [known, transform]
  have huA : (stA.maps 0).unknown = ⟨.var 2, .var 3, .var 2⟩ := by rw [hm]; exact hu1
  -- the read of the new version
  obtain ⟨st2, hg2, hsame2, hcs2, -, hn2, -, hb2, hl2, hu2, hi2, hbl2, -⟩ := get_miss 0 stA 0 none (.var 1) none (.lit true)
    (by rw [hm]; simp [lengthOf, hlay1, hbl1, start, isEmpty, E.add, E.symbolic, skip])
    (by
      refine exactMatch_none hUA.describes.sat ?_ ?_
      · intro i hi
        rw [show skip (stA.maps 0) none = 0 from rfl, List.drop_zero, hkA, huA] at hi
        simp only [List.cons_append, List.nil_append, List.mem_cons, List.not_mem_nil, or_false] at hi
        rcases hi with rfl | rfl <;> simp
      · intro _ i hi
        rw [show skip (stA.maps 0) none = 0 from rfl, List.drop_zero, hkA, huA] at hi
        simp only [List.cons_append, List.nil_append, List.mem_cons, List.not_mem_nil, or_false] at hi
        have h0 := (hUA.agree 0 (by simp [start])).1
        have h1 := (hUA.agree 1 (by simp [start])).1
        have h2 := (hUA.agree 2 (by simp [start])).1
        rcases hi with rfl | rfl <;> simp only [E.den, ← h0, ← h1, ← h2] <;> simp [env9])
    (by rw [hnA]; simp [E.within]) (hUA.describes.maps 0).within.invs
  rw [hnA] at hg2 hsame2 hb2
  rw [show skip (stA.maps 0) none = 0 from rfl, List.drop_zero, hkA] at hsame2
  -- the read of the old version
  have hlen2 : (st2.maps 0).layers.length = 1 := by
    obtain ⟨r', st', ρ', hg', hr'⟩ := get_read 0 hUB.describes 0 none (key := .var 1) (hint := none) (cond := .lit true)
      (by rw [hnA]; simp [E.within]) (by simp) trivial (hUB.describes.maps 0).base (by simp)
    rw [hg2] at hg'
    obtain ⟨-, rfl⟩ : _ ∧ st2 = st' := by simpa using hg'
    have := congrArg List.length (hr'.layers 0)
    rw [hm] at this
    simpa using this
  have hdrop : (st2.maps 0).layers.drop (skip (st2.maps 0) (some 0)) = [] := by
    simp [skip]
  have hk0 : (known (st2.maps 0).base ((st2.maps 0).layers.drop (skip (st2.maps 0) (some 0)))).1 = [⟨.var 0, .var 5, .var 5⟩, ⟨.var 1, .var 6, .var 6⟩] := by
    rw [hdrop, hb2, hbA]; rfl
  have hg3 := get_hit 0 st2 0 (some 0) (.var 1) none (.lit true) ⟨.var 1, .var 6, .var 6⟩
    (by rw [hdrop]; show isEmpty (st2.maps 0).baseLength = false; rw [hbl2, hm]; show isEmpty (st1.maps 0).baseLength = false; rw [hbl1]; rfl)
    (by
      apply exactMatch_hit
      rw [hk0]
      simp)
  refine ⟨start, stA, st2, _, fun _ => world9, env9 1 1, .var 0, .var 1, _, _, hB, rfl, rfl, rfl, hsA, hg2, hg3, ?_, ?_⟩
  · intro ρ' ha hs
    have h0 := (ha 0 (by simp [start])).1
    have h1 := (ha 1 (by simp [start])).1
    have := hs _ (hsame2 (implies (E.eq (.var 1) (.var 0)) (.and (E.eq (.var 6) (.const 5)) (.iff (.var 6) (.lit true)))) (by simp [sameAs]))
    rw [den_implies] at this
    have := this (by simp only [den_eq, E.den, ← h0, ← h1]; rfl)
    simp only [B.den, Bool.and_eq_true, den_eq, beq_iff_eq] at this
    exact this.1
  · obtain ⟨r', st', ρ', hg', hr'⟩ := get_read 0 hUB.describes 0 none (key := .var 1) (hint := none) (cond := .lit true)
      (by rw [hnA]; simp [E.within]) (by simp) trivial (hUB.describes.maps 0).base (by simp)
    rw [hg2] at hg'
    obtain ⟨-, rfl⟩ : _ ∧ st2 = st' := by simpa using hg'
    exact ⟨ρ', hUB.agree.trans hr'.agree hUB.next, hr'.describes.sat⟩

/-- C20 and C24 are false in general, because of flattening. The map is read at a symbolic key K, then key 0
is set to 3 and key 1 is set to 8, which is put into the same layer; then K is read again. When K is 1 the
second read returns what the first one did, 9, not the 8 that was set. -/
theorem C20_set_lost : ∃ (st st1 st2 st3 st4 : State) (W : Nat → Contents) (ρ : Env) (K : E) (r1 r2 : E × B),
    Describes st W ρ ∧ K.den ρ = 1 ∧ W 0 1 = (9, true) ∧
    get 1 st 0 none K none (.lit true) = some (r1, st1) ∧ set 1 st1 0 (.const 0) (.const 3) = some st2 ∧
    set 1 st2 0 (.const 1) (.const 8) = some st3 ∧ get 1 st3 0 none K none (.lit true) = some (r2, st4) ∧
    (∀ ρ', Agree st.next ρ ρ' → r2.1.den ρ' = r1.1.den ρ') ∧
    ∃ ρ', Agree st.next ρ ρ' ∧ sat st4.constraints ρ' ∧ r1.1.den ρ' = 9 ∧ r2.1.den ρ' = 9 := by
  have hB := start_world9 1 1
  have hmB := hB.maps 0
  -- the first read
  obtain ⟨st1, hg1, -, -, -, hn1, -, hb1, hl1, hu1, hi1, hbl1, -⟩ := get_miss 0 start 0 none (.var 0) none (.lit true) rfl
    (by
      refine exactMatch_none (ρ := env9 1 3) (start_world9 1 3).sat ?_ ?_
      · intro i hi; simp only [start, known, skip, List.drop_zero, List.nil_append, List.mem_singleton] at hi; subst hi; simp
      · intro _ i hi; simp only [start, known, skip, List.drop_zero, List.nil_append, List.mem_singleton] at hi; subst hi; simp [E.den, env9])
    (by simp [start, E.within]) (by simp [start, IB.pure, B.within])
  have hl1' : (st1.maps 0).layers = [] := by rw [hl1 rfl]; rfl
  have hb1' : (st1.maps 0).base = [⟨.var 0, .var 5, .var 5⟩] := hb1
  have hu1' : (st1.maps 0).unknown = ⟨.var 2, .var 3, .var 2⟩ := hu1
  have hbl1' : (st1.maps 0).baseLength = .var 4 := hbl1
  obtain ⟨_, _, ρ1, hg1', hr1⟩ := get_read 0 hB 0 none (key := .var 0) (hint := none) (cond := .lit true) (by simp [start, E.within]) (by simp) trivial
    hmB.base (by simp)
  rw [hg1] at hg1'
  obtain ⟨rfl, rfl⟩ := Prod.mk.inj (Option.some.inj hg1')
  -- the first update
  obtain ⟨st1a, hg2, -, -, -, hn2, -, hb2, hl2, hu2, hi2, hbl2, -⟩ := get_miss 0 st1 0 none (.const 0) none (.lit true)
    (by rw [hl1', List.drop_nil]; show isEmpty (st1.maps 0).baseLength = false; rw [hbl1']; rfl)
    (by
      rw [hl1', hb1', hu1']
      refine exactMatch_none hr1.describes.sat ?_ (by simp [E.symbolic])
      intro i hi
      simp only [List.drop_nil, known, List.cons_append, List.nil_append, List.mem_cons, List.not_mem_nil, or_false] at hi
      rcases hi with rfl | rfl <;> simp)
    trivial (hr1.describes.maps 0).within.invs
  obtain ⟨_, _, ρ2, hg2', hr2⟩ := get_read 0 hr1.describes 0 none (key := .const 0) (hint := none) (cond := .lit true) trivial (by simp) trivial
    (hr1.describes.maps 0).base (by simp)
  rw [hg2] at hg2'
  obtain ⟨rfl, rfl⟩ := Prod.mk.inj (Option.some.inj hg2')
  obtain ⟨p2, hp2, -⟩ := constantOr_some hr2.describes.sat hr2.within.2
  have hs2 := set_of_get (value := .const 3) hg2 hp2
  obtain ⟨_, ρ3, hs2', hU2⟩ := set_updated 0 hr1.describes 0 (key := .const 0) (value := .const 3) trivial trivial
    (by rw [hu1']; show 0 ≠ ρ1.bv 2; rw [← (hr1.agree 2 (by simp [start])).1]; simp [env9])
    (by rw [hl1']; rfl) (by rw [contentAt_congr hB hr1.agree (hr1.layers 0)]; exact room9)
  rw [hs2] at hs2'
  have hst2 := Option.some.inj hs2'
  have hn1' : st1.next = 6 := hn1
  have hl2' : (st1a.maps 0).layers = [] := by rw [hl2 rfl, hl1']; rfl
  have hb2' : (st1a.maps 0).base = [⟨.var 0, .var 5, .var 5⟩, ⟨.const 0, .var 6, .var 6⟩] := by rw [hb2, hb1', hn1']; rfl
  generalize hst2d : st1a.setMap 0 (withItemLayer (st1a.maps 0) ⟨.const 0, .const 3, .lit true⟩ (.ite p2 (.const 0) (.const 1))) = st2 at hs2 hst2
  subst hst2
  have hm2 : st2.maps 0 = { st1a.maps 0 with layers := [⟨[⟨.const 0, .const 3, .lit true⟩], (st1a.maps 0).baseLength.add (.ite p2 (.const 0) (.const 1)), (0, [])⟩] } := by
    rw [← hst2d, setMap_same]
    simp [withItemLayer, flattens, hl2', lengthOf]
  -- the second update
  have hk2 : known (st2.maps 0).base (st2.maps 0).layers =
      ([⟨.const 0, .const 3, .lit true⟩, ⟨.var 0, .ite ((E.var 0).eq (.const 0)) (.const 3) (.var 5), .ite ((E.var 0).eq (.const 0)) (.lit true) (.var 5)⟩],
       [⟨[⟨.const 0, .const 3, .lit true⟩], (st1a.maps 0).baseLength.add (.ite p2 (.const 0) (.const 1)),
         (2, [⟨.var 0, .ite ((E.var 0).eq (.const 0)) (.const 3) (.var 5), .ite ((E.var 0).eq (.const 0)) (.lit true) (.var 5)⟩])⟩]) := by
    rw [hm2]
    simp [known, hb2', transform, iteE, iteB]
  have hu2' : (st2.maps 0).unknown = ⟨.var 2, .var 3, .var 2⟩ := by rw [hm2]; exact hu2.trans hu1'
  have hlen2 : isEmpty ((st1a.maps 0).baseLength.add (.ite p2 (.const 0) (.const 1))) = false := by
    rw [hbl2, hbl1']; simp [isEmpty, E.add, E.symbolic]
  obtain ⟨st2a, hg3, -, -, -, hn3, -, hb3, hl3, hu3, hi3, hbl3, -⟩ := get_miss 0 st2 0 none (.const 1) none (.lit true)
    (by rw [hm2]; exact hlen2)
    (by
      rw [show skip (st2.maps 0) none = 0 from rfl, List.drop_zero, hk2, hu2']
      refine exactMatch_none hU2.describes.sat ?_ (by simp [E.symbolic])
      intro i hi
      simp only [List.cons_append, List.nil_append, List.mem_cons, List.not_mem_nil, or_false] at hi
      rcases hi with rfl | rfl | rfl <;> simp)
    trivial (hU2.describes.maps 0).within.invs
  obtain ⟨_, _, ρ4, hg3', hr3⟩ := get_read 0 hU2.describes 0 none (key := .const 1) (hint := none) (cond := .lit true) trivial (by simp) trivial
    (hU2.describes.maps 0).base (by simp)
  rw [hg3] at hg3'
  obtain ⟨rfl, rfl⟩ := Prod.mk.inj (Option.some.inj hg3')
  obtain ⟨p3, hp3, -⟩ := constantOr_some hr3.describes.sat hr3.within.2
  have hs3 := set_of_get (value := .const 8) hg3 hp3
  have hn2' : st2.next = 7 := by rw [← hst2d]; show st1a.next = 7; rw [hn2, hn1']
  have hb3' : (st2a.maps 0).base = [⟨.var 0, .var 5, .var 5⟩, ⟨.const 0, .var 6, .var 6⟩, ⟨.const 1, .var 7, .var 7⟩] := by
    rw [hb3, hm2, hn2']; show (st1a.maps 0).base ++ _ = _; rw [hb2']; rfl
  have hl3' : (st2a.maps 0).layers = [⟨[⟨.const 0, .const 3, .lit true⟩], (st1a.maps 0).baseLength.add (.ite p2 (.const 0) (.const 1)),
         (3, [⟨.var 0, .ite ((E.var 0).eq (.const 0)) (.const 3) (.var 5), .ite ((E.var 0).eq (.const 0)) (.lit true) (.var 5)⟩,
              ⟨.const 1, .ite ((E.const 1).eq (.const 0)) (.const 3) (.var 7), .ite ((E.const 1).eq (.const 0)) (.lit true) (.var 7)⟩])⟩] := by
    rw [hl3 rfl, hk2, hn2', hm2]
    simp [known, hb2', transform, iteE, iteB]
  generalize hst3d : st2a.setMap 0 (withItemLayer (st2a.maps 0) ⟨.const 1, .const 8, .lit true⟩ (.ite p3 (.const 0) (.const 1))) = st3 at hs3
  have hm3 : st3.maps 0 = { st2a.maps 0 with layers := [⟨[⟨.const 0, .const 3, .lit true⟩, ⟨.const 1, .const 8, .lit true⟩],
         ((st1a.maps 0).baseLength.add (.ite p2 (.const 0) (.const 1))).add (.ite p3 (.const 0) (.const 1)),
         (3, [⟨.var 0, .ite ((E.var 0).eq (.const 0)) (.const 3) (.var 5), .ite ((E.var 0).eq (.const 0)) (.lit true) (.var 5)⟩,
              ⟨.const 1, .ite ((E.const 1).eq (.const 0)) (.const 3) (.var 7), .ite ((E.const 1).eq (.const 0)) (.lit true) (.var 7)⟩])⟩] } := by
    rw [← hst3d, setMap_same]
    simp [withItemLayer, flattens, hl3', E.symbolic]
  -- the second read
  have hk3 : (known (st3.maps 0).base (st3.maps 0).layers).1 =
      [⟨.const 0, .const 3, .lit true⟩, ⟨.const 1, .const 8, .lit true⟩,
       ⟨.var 0, .ite ((E.var 0).eq (.const 0)) (.const 3) (.var 5), .ite ((E.var 0).eq (.const 0)) (.lit true) (.var 5)⟩,
       ⟨.const 1, .ite ((E.const 1).eq (.const 0)) (.const 3) (.var 7), .ite ((E.const 1).eq (.const 0)) (.lit true) (.var 7)⟩] := by
    rw [hm3]
    simp [known, hb3']
  have hg4 := get_hit 0 st3 0 none (.var 0) none (.lit true)
    ⟨.var 0, .ite ((E.var 0).eq (.const 0)) (.const 3) (.var 5), .ite ((E.var 0).eq (.const 0)) (.lit true) (.var 5)⟩
    (by
      rw [hm3]
      show isEmpty (((st1a.maps 0).baseLength.add (.ite p2 (.const 0) (.const 1))).add (.ite p3 (.const 0) (.const 1))) = false
      rw [hbl2, hbl1']; simp [isEmpty, E.add, E.symbolic])
    (by
      apply exactMatch_hit
      rw [show skip (st3.maps 0) none = 0 from rfl, List.drop_zero, hk3]
      simp)
  have hval : ∀ ρ', Agree start.next (env9 1 1) ρ' →
      (E.ite ((E.var 0).eq (.const 0)) (.const 3) (.var 5)).den ρ' = (E.var start.next).den ρ' := by
    intro ρ' ha
    have h0 := (ha 0 (by simp [start])).1
    simp only [E.den, den_eq, ← h0]
    simp [env9, start]
  refine ⟨start, st1, st2, st3, _, fun _ => world9, env9 1 1, .var 0, _, _, hB, rfl, rfl, hg1, hs2, hs3, hg4, hval, ρ4, ?_, ?_, ?_⟩
  · exact (hr1.agree.trans hU2.agree hr1.next).trans hr3.agree (hr1.next.trans hU2.next)
  · intro c hc
    refine hr3.describes.sat c ?_
    rw [← hst3d] at hc
    exact hc
  · have h9 : (E.var start.next).den ρ4 = 9 := by
      have hv := hr1.value rfl rfl
      have e : (E.var start.next).den ρ1 = 9 := hv
      rw [← e]
      have ha := hU2.agree.trans hr3.agree hU2.next
      exact (ha 5 (by rw [hn1']; omega)).1.symm
    refine ⟨h9, ?_⟩
    rw [← h9]
    exact hval ρ4 ((hr1.agree.trans hU2.agree hr1.next).trans hr3.agree (hr1.next.trans hU2.next))

end Verif.Props
