/-
Ghost maps: further claims that are false of the code (C19, C20, C22, C25), with concrete witnesses.
-/
import Verif.Props.GhostMapForall

set_option autoImplicit false

namespace Verif.Props

open Verif.Tool.GhostMap

/-- The invariant of an array of length 1 (ghostmaps.py:162-164). -/
def array1Inv : IB := .iff (.rel (fun x y => decide (x < y)) .key (.lift (.const 1))) .present

/-- Two arrays of length 1, objects 0 and 1, as `new_array` makes them; symbol 4 is a key of the program. -/
def twoArrays : State :=
  ⟨[.iff (.rel (fun x y => decide (x < y)) (.var 0) (.const 1)) (.var 0), .iff (.rel (fun x y => decide (x < y)) (.var 2) (.const 1)) (.var 2)], 5,
    fun o => if o = 0 then ⟨[array1Inv], [], .const 1, ⟨.var 0, .var 1, .var 0⟩, []⟩ else ⟨[array1Inv], [], .const 1, ⟨.var 2, .var 3, .var 2⟩, []⟩⟩

/-- Arrays that hold one value. -/
def arrayWorld (v : Nat) : Contents := fun k => if k = 0 then (v, true) else (0, false)

theorem twoArrays_describes (a b : Nat) (ρ : Env) (h0 : arrayWorld a (ρ.bv 0) = (ρ.bv 1, ρ.bl 0)) (h1 : arrayWorld b (ρ.bv 2) = (ρ.bv 3, ρ.bl 2)) :
    Describes twoArrays (fun o => if o = 0 then arrayWorld a else arrayWorld b) ρ := by
  have hlt : ∀ v k p, (arrayWorld v k).2 = p → (decide (k < 1) == p) = true := by
    intro v k p h
    unfold arrayWorld at h
    by_cases hk : k = 0
    · simp [hk] at h; simp [hk, h]
    · simp [hk] at h; simp [hk, h]
  refine ⟨?_, by simp [twoArrays, B.within, E.within], fun o => ?_⟩
  · simp only [sat, twoArrays, List.forall_mem_cons, List.not_mem_nil, false_imp_iff, implies_true, and_true]
    exact ⟨hlt a _ _ (congrArg Prod.snd h0), hlt b _ _ (congrArg Prod.snd h1)⟩
  · have key : ∀ (v : Nat) (u : Item), u.within 5 → u.ok ρ (arrayWorld v) → MapOk 5 ρ (arrayWorld v) ⟨[array1Inv], [], .const 1, u, []⟩ := by
      intro v u hu hok
      refine ⟨⟨by simp, trivial, hu, by simp, by simp [array1Inv, IB.pure, IE.pure, E.within]⟩, trivial, by simp, by simp [BaseOk], by simp [Untouched], hok, by simp, ?_, ?_⟩
      · intro inv hi k _
        simp only [List.mem_singleton] at hi
        subst hi
        exact hlt v k _ rfl
      · intro d
        simp only [List.drop_nil]
        refine ⟨{0}, fun k => ?_, rfl, by simp⟩
        unfold arrayWorld content
        by_cases hk : k = 0 <;> simp [hk]
    by_cases ho : o = 0
    · simp only [twoArrays, ho, if_true]
      exact key a _ (by simp [Item.within, E.within, B.within]) h0
    · simp only [twoArrays, ho, if_false]
      exact key b _ (by simp [Item.within, E.within, B.within]) h1

/-- C22 is false in general for predicates that read another map with an expected value. Of two arrays of
length 1, the first holds 1 and the second holds 2. Asked whether every item of the first is in the second
with the same value, the verifier's answer is yes in every assignment that satisfies the constraints: the
read of the second map adds the constraint that its value is the expected one. The state describes this
world before the operation, and afterwards there are assignments, so nothing else is contradictory. -/
theorem C22_hint_unsound : ∃ (st st' : State) (W : Nat → Contents) (ρ : Env) (r : B),
    Describes st W ρ ∧ forall_ 1 st 0 (.mapHasValue 1 .key .value none) = some (r, st') ∧ W 0 0 = (1, true) ∧ W 1 0 = (2, true) ∧
    (∀ ρ', sat st'.constraints ρ' → r.den ρ' = true) ∧ ∃ ρ', sat st'.constraints ρ' := by
  classical
  -- an assignment where the unknown key of the first map is present and not that of the second
  set ρ1 : Env := ⟨fun i => if i = 1 then 1 else if i = 2 then 7 else 0, fun i => i == 0⟩ with hρ1
  have hd := twoArrays_describes 1 2 ρ1 rfl rfl
  -- the read of the second map
  have hcond : (B.and (.var 0) (.lit true)).den ρ1 = true := rfl
  have hx := exactMatch_none (cs := twoArrays.constraints) (key := .var 0) (l := [⟨.var 2, .var 3, .var 2⟩]) hd.sat (by simp) (by simp [E.den, hρ1]) hcond
  obtain ⟨st1, hg, hsame, hcs, hhint, hn1, ho1, hb1, hl1, hu1, hi1, hbl1, hinv1⟩ := get_miss 0 twoArrays 1 (some 0) (.var 0) (some (.var 1)) (.and (.var 0) (.lit true)) rfl hx
    (by simp [twoArrays, E.within]) (by simp [twoArrays, array1Inv, IB.pure, IE.pure, E.within])
  have hsat1 := get_miss_sat 0 twoArrays st1 1 (some 0) (.var 0) (some (.var 1)) (.and (.var 0) (.lit true)) _ rfl rfl hx
    (by simp [twoArrays, E.within]) (by simp [twoArrays, array1Inv, IB.pure, IE.pure, E.within]) hg
  have hset : twoArrays.setMap 0 ((twoArrays.maps 0).setLower 0 []) = twoArrays := by
    simp only [State.setMap, twoArrays, State.mk.injEq, true_and]
    funext o; by_cases ho : o = 0 <;> simp [ho, MapS.setLower]
  have hof : (overfullCheck twoArrays 0 0).2 = twoArrays ∧ ∀ ρ, (overfullCheck twoArrays 0 0).1.den ρ = true := by
    refine ⟨hset, fun ρ => ?_⟩
    unfold overfullCheck notOverfull
    simp only [twoArrays, if_true, List.drop_nil, known, lengthOf]
    split
    · rfl
    · simp [knownLength, E.le, B.den, E.den]
  have heval : applyInv (get 1) twoArrays (.or (.not .present) (.mapHasValue 1 .key .value (some 0))) ⟨.var 0, .var 1, .var 0⟩ (.lit true) =
      some (.or (.not (.var 0)) (.and (.var 5) ((E.var 5).eq (.var 1))), st1) := by
    simp only [applyInv, evalB, evalE]
    rw [hg]; rfl
  -- the second evaluation finds the item
  set st2 : State := { st1 with next := st1.next + 1 }.add [.iff (.var st1.next) (.and (andAll []) (implies (overfullCheck twoArrays 0 0).1
    (implies (isUnknown (.var 0) []) (.or (.not (.var 0)) (.and (.var 5) ((E.var 5).eq (.var 1)))))))] with hst2
  have hb1' : (st1.maps 1).base = [⟨.var 0, .var 5, .var 5⟩] := hb1
  have hl1' : (st1.maps 1).layers = [] := by rw [hl1 rfl]; rfl
  have hg2 := get_hit 0 st2 1 (some 0) (.var 0) (some (.var 1)) (.and (.var 0) (.lit true)) ⟨.var 0, .var 5, .var 5⟩
    (by show isEmpty (lengthOf (st1.maps 1) ((st1.maps 1).layers.drop _)) = false; rw [hl1', List.drop_nil]; show isEmpty (st1.maps 1).baseLength = false; rw [hbl1]; rfl)
    (by
      show exactMatch _ _ ((known (st1.maps 1).base ((st1.maps 1).layers.drop _)).1 ++ _) _ = _
      rw [hl1', List.drop_nil, hb1']
      exact exactMatch_hit (by simp [known]))
  set st3 := st2.setMap 1 ((st2.maps 1).setLower (skip (st2.maps 1) (some 0)) (known (st2.maps 1).base ((st2.maps 1).layers.drop (skip (st2.maps 1) (some 0)))).2) with hst3
  have hu2 : (st2.maps 0).unknown = ⟨.var 0, .var 1, .var 0⟩ := by
    show (st1.maps 0).unknown = _
    rw [ho1 0 (by simp)]; rfl
  have heval2 : applyInv (get 1) st2 (iimplies (.lift (.var st1.next)) (.or (.not .present) (.mapHasValue 1 .key .value (some 0)))) (st2.maps 0).unknown (.lit true) =
      some (.or (.not (.var st1.next)) (.or (.not (.var 0)) (.and (.var 5) ((E.var 5).eq (.var 1)))), st3) := by
    rw [hu2]
    simp only [applyInv, iimplies, evalB, evalE]
    rw [hg2]
  have hrun : forall_ 1 twoArrays 0 (.mapHasValue 1 .key .value none) = some (.var st1.next,
      (st3.add [.or (.not (.var st1.next)) (.or (.not (.var 0)) (.and (.var 5) ((E.var 5).eq (.var 1))))]).setMap 0
        { st3.maps 0 with invs := (st3.maps 0).invs ++ [iimplies (.lift (.var st1.next)) (.or (.not .present) (.mapHasValue 1 .key .value (some 0)))] }) := by
    unfold forall_
    have e1 : freezeB twoArrays (iimplies .present (.mapHasValue 1 .key .value none)) = .or (.not .present) (.mapHasValue 1 .key .value (some 0)) := rfl
    have e2 : isEmpty (lengthOf (twoArrays.maps 0) (twoArrays.maps 0).layers) = false := rfl
    have e3 : known (twoArrays.maps 0).base (twoArrays.maps 0).layers = ([], []) := rfl
    have e4 : (twoArrays.maps 0).unknown = ⟨.var 0, .var 1, .var 0⟩ := rfl
    simp only [e1, e2, e3, e4, Bool.false_eq_true, if_false, hset, applyAll, hof.1, heval]
    rw [← hst2]
    unfold addInv
    rw [heval2]
    rfl
  refine ⟨twoArrays, _, _, ρ1, _, hd, hrun, rfl, rfl, fun ρ' hs => ?_, ?_⟩
  · have hc3 : ∀ c ∈ st1.constraints, c.den ρ' = true := fun c hc => hs c (by
      show c ∈ _ :: _ :: st1.constraints
      simp [hc])
    have hres : (B.iff (.var st1.next) (.and (andAll []) (implies (overfullCheck twoArrays 0 0).1
        (implies (isUnknown (.var 0) []) (.or (.not (.var 0)) (.and (.var 5) ((E.var 5).eq (.var 1)))))))).den ρ' = true := hs _ (by
      show _ ∈ _ :: _ :: st1.constraints
      simp)
    have ha0 := hc3 (.iff (.rel (fun x y => decide (x < y)) (.var 0) (.const 1)) (.var 0)) (hcs _ (by simp [twoArrays]))
    have hh := hc3 (implies (.and (.var 0) (.lit true)) ((E.var 5).eq (.var 1))) (hhint _ (by simp [hintConstraint, twoArrays]))
    have hi := hinv1 ρ' (fun c hc => hc3 c hc) rfl array1Inv (by simp [twoArrays])
    simp only [B.den, andAll, implies, hof.2 ρ', isUnknown, List.map_nil, Bool.not_true, Bool.false_or, Bool.true_and, beq_iff_eq] at hres
    show ρ'.bl st1.next = true
    rw [hres]
    cases h0 : ρ'.bl 0 with
    | false => rfl
    | true =>
      have hv : ρ'.bv 5 = ρ'.bv 1 := by simpa [implies, B.den, h0, den_eq, E.den] using hh
      have hk : ρ'.bv 0 < 1 := by simpa [B.den, E.den, h0] using ha0
      have hp : ρ'.bl 5 = true := by simpa [array1Inv, IB.sem, IE.sem, E.den, hk, twoArrays] using hi
      simp [hp, den_eq, E.den, hv]
  · set ρ2 : Env := ⟨fun i => if i = 0 then 7 else if i = 2 then 8 else 0, fun i => i == 6⟩ with hρ2
    have h1 := hsat1 ρ2 (by simp [sat, twoArrays, B.den, E.den, hρ2]) (by simp [hintConstraint, implies, B.den, hρ2])
      (by simp [sameAs, twoArrays, implies, B.den, den_eq, E.den, hρ2])
      (by simp [twoArrays, array1Inv, IB.sem, IE.sem, E.den, hρ2])
      (by simp [twoArrays, knownLength, E.le, B.den, E.den, E.add, andAll, hρ2])
    have hn1' : st1.next = 6 := hn1
    refine ⟨ρ2, fun c hc => ?_⟩
    have hc' : c ∈ .or (.not (.var st1.next)) (.or (.not (.var 0)) (.and (.var 5) ((E.var 5).eq (.var 1)))) ::
        .iff (.var st1.next) (.and (andAll []) (implies (overfullCheck twoArrays 0 0).1
        (implies (isUnknown (.var 0) []) (.or (.not (.var 0)) (.and (.var 5) ((E.var 5).eq (.var 1))))))) :: st1.constraints := hc
    rcases List.mem_cons.1 hc' with rfl | hc'
    · rw [hn1']; rfl
    · rcases List.mem_cons.1 hc' with rfl | hc'
      · rw [hn1']; simp [B.den, andAll, implies, isUnknown, hρ2]
      · exact h1 c hc'

/-- C20 is false in general for the key of the unknown item, and so is C22 together with later updates. An
array of length 1 holds 9. Assume that not all values differ from 9, then set key 0 to 5, then read a key K:
no assignment that satisfies the constraints has K = 0, although K can be 0. The unknown item, which is the
one with value 9, is not changed by the update. -/
theorem C20_unknown_key_wrong : ∃ (st st1 st3 st4 : State) (W : Nat → Contents) (ρ ρ0 : Env) (p : IB) (r : B) (K : E) (x : E × B),
    Describes st W ρ ∧ Describes st W ρ0 ∧ K.den ρ = 0 ∧ W 0 0 = (9, true) ∧ (∀ ρ', p.sem noMaps ρ' 0 9 true = false) ∧
    forall_ 1 st 0 p = some (r, st1) ∧ set 1 (st1.add [.not r]) 0 (.const 0) (.const 5) = some st3 ∧
    get 1 st3 0 none K none (.lit true) = some (x, st4) ∧ ∀ ρ', sat st4.constraints ρ' → K.den ρ' ≠ 0 := by
  set ρk : Nat → Env := fun k => ⟨fun i => if i = 1 then 9 else if i = 2 then 7 else if i = 4 then k else 0, fun i => i == 0⟩ with hρk
  have hd : ∀ k, Describes twoArrays (fun o => if o = 0 then arrayWorld 9 else arrayWorld 2) (ρk k) := fun k => twoArrays_describes 9 2 (ρk k) rfl rfl
  set pred : IB := .rel (fun x y => x != y) .value (.lift (.const 9)) with hpred
  obtain ⟨st1, h1, hn1, ho1, hm1, hc1⟩ := forall_fresh 1 twoArrays 0 (pred := pred) ⟨trivial, trivial⟩ rfl rfl
    (by simp [twoArrays, Item.within, E.within, B.within]) rfl
  obtain ⟨r', st1', ρ1, h1', ha1, hd1, hn1', hr1, hl1⟩ := forall_core 1 (hd 3) 0 (pred := pred) ⟨trivial, trivial⟩
    (.inr (.inr ⟨by simp [State.items, twoArrays, items], rfl, rfl⟩))
  rw [h1] at h1'
  obtain ⟨rfl, rfl⟩ := Prod.mk.inj (Option.some.inj h1')
  have hrf : (B.var twoArrays.next).den ρ1 = false := by
    by_contra hne
    rw [Bool.not_eq_false] at hne
    have := hr1.1 hne 0 9 rfl
    simp [hpred, IB.sem, IE.sem, E.den] at this
  set st1a := st1.add [.not (.var twoArrays.next)] with hst1a
  have hd1a : Describes st1a (fun o => if o = 0 then arrayWorld 9 else arrayWorld 2) ρ1 := hd1.add (by
    simp only [List.mem_singleton, forall_eq]
    exact ⟨by show twoArrays.next < st1.next; rw [hn1]; exact Nat.lt_succ_self _, by simp only [B.den] at hrf ⊢; rw [hrf]; rfl⟩)
  have hm1a : st1a.maps 0 = { twoArrays.maps 0 with invs := (twoArrays.maps 0).invs ++ [iimplies (.lift (.var twoArrays.next)) (iimplies .present pred)] } := hm1
  -- the update
  obtain ⟨st2, hg2, hsame2, hcs2, -, hn2, -, hb2, hl2, hu2, hi2, hbl2, -⟩ := get_miss 0 st1a 0 none (.const 0) none (.lit true)
    (by rw [hm1a]; rfl)
    (by rw [hm1a]; exact exactMatch_none hd1a.sat (by simp [twoArrays, known]) (by simp [E.symbolic]))
    trivial (hd1a.maps 0).within.invs
  obtain ⟨_, _, ρ2, hg2', hr2⟩ := get_read 0 hd1a 0 none (key := .const 0) (hint := none) (cond := .lit true) trivial (by simp) trivial
    (hd1a.maps 0).base (by simp)
  rw [hg2] at hg2'
  obtain ⟨rfl, rfl⟩ := Prod.mk.inj (Option.some.inj hg2')
  obtain ⟨p2, hp2, -⟩ := constantOr_some hr2.describes.sat hr2.within.2
  have hs2 := set_of_get (value := .const 5) hg2 hp2
  have hl2' : (st2.maps 0).layers = [] := by rw [hl2 rfl, hm1a]; rfl
  have hb2' : (st2.maps 0).base = [⟨.const 0, .var st1a.next, .var st1a.next⟩] := by rw [hb2, hm1a]; rfl
  have hu2' : (st2.maps 0).unknown = ⟨.var 0, .var 1, .var 0⟩ := by rw [hu2, hm1a]; rfl
  generalize hst3 : st2.setMap 0 (withItemLayer (st2.maps 0) ⟨.const 0, .const 5, .lit true⟩ (.ite p2 (.const 0) (.const 1))) = st3 at hs2
  have hm3 : st3.maps 0 = { st2.maps 0 with layers := [⟨[⟨.const 0, .const 5, .lit true⟩], (st2.maps 0).baseLength.add (.ite p2 (.const 0) (.const 1)), (0, [])⟩] } := by
    rw [← hst3, setMap_same]
    simp [withItemLayer, flattens, hl2', lengthOf]
  have hc3 : st3.constraints = st2.constraints := by rw [← hst3]; rfl
  have hn3 : st3.next = st2.next := by rw [← hst3]; rfl
  have hk3 : (known (st3.maps 0).base (st3.maps 0).layers).1 = [⟨.const 0, .const 5, .lit true⟩] := by
    rw [hm3]
    simp [known, hb2', transform]
  have ha : Agree 5 (ρk 3) ρ2 := ha1.trans hr2.agree hn1'
  -- the read
  obtain ⟨st4, hg4, hsame4, hcs4, -⟩ := get_miss 0 st3 0 none (.var 4) none (.lit true)
    (by
      rw [hm3]
      show isEmpty ((st2.maps 0).baseLength.add _) = false
      rw [hbl2, hm1a]
      simp only [isEmpty, twoArrays, if_true, E.add, E.den]
      cases p2.den env0 <;> simp)
    (by
      rw [show skip (st3.maps 0) none = 0 from rfl, List.drop_zero, hk3, hm3, hc3]
      show exactMatch _ _ (_ ++ [(st2.maps 0).unknown]) _ = none
      rw [hu2']
      refine exactMatch_none hr2.describes.sat ?_ ?_
      · intro i hi
        simp only [List.cons_append, List.nil_append, List.mem_cons, List.not_mem_nil, or_false] at hi
        rcases hi with rfl | rfl <;> simp
      · intro _ i hi
        simp only [List.cons_append, List.nil_append, List.mem_cons, List.not_mem_nil, or_false] at hi
        have h4 : ρ2.bv 4 = 3 := (ha 4 (by omega)).1.symm
        have h0 : ρ2.bv 0 = 0 := (ha 0 (by omega)).1.symm
        rcases hi with rfl | rfl <;> simp [E.den, h4, h0])
    (by rw [hn3, hn2]; show 4 < st1.next + 1; rw [hn1]; simp [twoArrays])
    (by
      rw [hm3, hn3]
      exact (hr2.describes.maps 0).within.invs)
  refine ⟨twoArrays, st1, st3, st4, _, ρk 0, ρk 3, pred, _, .var 4, _, hd 0, hd 3, rfl, rfl, fun _ => rfl, h1, hs2, hg4, fun ρ' hs hK => ?_⟩
  rw [show skip (st3.maps 0) none = 0 from rfl, List.drop_zero, hk3] at hsame4
  have hu3 : (st3.maps 0).unknown = ⟨.var 0, .var 1, .var 0⟩ := by rw [hm3]; exact hu2'
  rw [hu3] at hsame4
  have e1 := hs _ (hsame4 _ (by simp only [sameAs, List.cons_append, List.nil_append, List.map_cons, List.mem_cons]; exact .inl rfl))
  have e2 := hs _ (hsame4 _ (by simp only [sameAs, List.cons_append, List.nil_append, List.map_cons, List.mem_cons]; exact .inr (.inl rfl)))
  have hs1 : sat st1.constraints ρ' := fun c hc => hs c (hcs4 c (by rw [hc3]; exact hcs2 c (by rw [hst1a]; exact List.mem_append_right _ hc)))
  have hnr : (B.not (.var twoArrays.next)).den ρ' = true := hs _ (hcs4 _ (by rw [hc3]; exact hcs2 _ (by rw [hst1a]; simp [State.add])))
  obtain ⟨hs0, hiff⟩ := (hc1 ρ').1 hs1
  have hr : ρ'.bl twoArrays.next = false := by simpa [B.den] using hnr
  rw [hr] at hiff
  simp only [Bool.false_eq_true, false_iff, Classical.not_imp] at hiff
  have hv : ρ'.bv 1 = 9 := by
    have := hiff.2
    simpa [hpred, IB.sem, IE.sem, E.den, twoArrays] using this
  have hp : ρ'.bl 0 = true := hiff.1
  have ha0 := hs0 (.iff (.rel (fun x y => decide (x < y)) (.var 0) (.const 1)) (.var 0)) (by simp [twoArrays])
  have hk : ρ'.bv 0 = 0 := by simpa [B.den, E.den, hp] using ha0
  have hK' : ρ'.bv 4 = 0 := hK
  have f1 := ((den_implies ρ' _ _).1 e1 (by simp [den_eq, E.den, hK']))
  have f2 := ((den_implies ρ' _ _).1 e2 (by simp [den_eq, E.den, hK', hk]))
  simp only [B.den, den_eq, E.den, Bool.and_eq_true, beq_iff_eq] at f1 f2
  omega

end Verif.Props
