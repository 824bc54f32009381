/-
Properties C19 and C20 for ghost maps whose invariants read other maps, and what is false of these.
-/
import Verif.Props.GhostMapCross
import Verif.Props.GhostMapWrong2

set_option autoImplicit false

namespace Verif.Props

open Verif.Tool.GhostMap

/-- Two maps with items, of which nothing is known except for an invariant of map 0. The unknown items are symbols 0 to 3, the
lengths are symbols 4 and 5, and symbol 6 is a key of the program. -/
def linked (inv : IB) : State :=
  ⟨[], 7, fun o => if o = 0 then ⟨[inv], [], .var 4, ⟨.var 0, .var 1, .var 0⟩, []⟩ else ⟨[], [], .var 5, ⟨.var 2, .var 3, .var 2⟩, []⟩⟩

/-- A world where the first map holds key 3 with value 1 and the others hold key 3 with value v. -/
def linkedWorld (v : Nat) : Nat → Contents := fun o k => if k = 3 then (if o = 0 then 1 else v, true) else (0, false)

/-- An assignment for it: the unknown keys, 10 and 11, are absent, and the key of the program is k. -/
def linkedEnv (k : Nat) : Env := ⟨fun i => if i = 0 then 10 else if i = 2 then 11 else if i = 4 ∨ i = 5 then 1 else if i = 6 then k else 0, fun _ => false⟩

private theorem linked_describes (inv : IB) (v k : Nat) : Describes ((linked inv).plain fun o => o != 0) (linkedWorld v) (linkedEnv k) := by
  refine ⟨by simp [sat, linked, State.plain], by simp [linked, State.plain], fun o => ?_⟩
  have key : ∀ (w : Contents) (len : E) (u : Item), u.within 7 → len.within 7 → u.ok (linkedEnv k) w → len.den (linkedEnv k) = 1 → (∀ j, (w j).2 = decide (j = 3)) →
      MapOk 7 (linkedEnv k) w ⟨[], [], len, u, []⟩ := by
    intro w len u hu hl hok hlen hw
    refine ⟨⟨by simp, hl, hu, by simp, by simp⟩, trivial, by simp, by simp [BaseOk], by simp [Untouched], hok, by simp, by simp, fun d => ?_⟩
    simp only [List.drop_nil]
    exact ⟨{3}, fun j => by simp [content, hw], hlen, by simp⟩
  have hp : ∀ o j, (linkedWorld v o j).2 = decide (j = 3) := by
    intro o j; unfold linkedWorld; by_cases h : j = 3 <;> simp [h]
  by_cases ho : o = 0
  · subst ho
    exact key _ _ _ (by simp [linked, Item.within, E.within, B.within]) (by simp [linked, E.within]) (by simp [linked, Item.ok, E.den, B.den, linkedEnv, linkedWorld]) rfl (hp 0)
  · simp only [linked, State.plain, ho, bne_iff_ne, ne_eq, not_false_eq_true, if_true, if_false]
    exact key _ _ _ (by simp [Item.within, E.within, B.within]) (by simp [E.within]) (by simp [Item.ok, E.den, B.den, linkedEnv, linkedWorld]) rfl (hp o)

/-- The invariant that every key of map 0 is in map 1 with value 5. -/
def hintedInv : IB := iimplies .present (.mapHasValue 1 .key (.lift (.const 5)) none)

/-- The invariant that every key of map 0 is in map 1. -/
def linkInv : IB := iimplies .present (.mapHas 1 .key none)

private theorem linked_cross (inv : IB) (v k : Nat) (hc : Claims 7 (fun o => o != 0) inv)
    (hi : ∀ j, inv.sem (fun o _ => linkedWorld v o) (linkedEnv k) j (linkedWorld v 0 j).1 (linkedWorld v 0 j).2 = true) :
    DescribesCross (fun o => o != 0) (linked inv) (linkedWorld v) (linkedEnv k) := by
  have h0 : ∀ o, (o != 0) = false → o = 0 := by intro o h; simpa using h
  refine ⟨linked_describes inv v k, fun o ho i hinv => ?_, fun o ho => .inr ⟨?_, fun i hinv => ?_⟩, fun o ho i hinv j _ => ?_, fun o ho => ?_⟩
  · obtain rfl := h0 o ho
    obtain rfl : i = inv := by simpa [linked] using hinv
    exact hc
  · obtain rfl := h0 o ho; rfl
  · obtain rfl := h0 o ho
    obtain rfl : i = inv := by simpa [linked] using hinv
    exact hi
  · obtain rfl := h0 o ho
    obtain rfl : i = inv := by simpa [linked] using hinv
    exact hi j
  · have : o ≠ 0 := by simpa using ho
    simp [linked, this]

/-- C19, also for invariants that read other maps. A read of the newest version of a map always returns; afterwards the state
still describes every world it described, under an assignment that leaves all the existing symbols as they were; the result is
present if and only if the key is in the map of that world, and then its value is the value there. The invariants may read maps
that have not been updated, for present items; they may have expected values if they say this of every present item and the map
has not been updated either. What is missing: expected values in a part of an invariant only, for which it is false
(`C19_hint_lost`), and in updated maps, for which it is false (`C19_hint_updated_lost`); invariants that read maps whose
invariants read further maps, for which it is false (`C19_condition_dropped`); and flattened updates (`C20_set_lost`). -/
theorem C19_cross_partial (L : Nat → Bool) (fuel : Nat) (st : State) (W : Nat → Contents) (ρ : Env) (h : DescribesCross L st W ρ) (obj : Nat) (key : E)
    (hk : key.within st.next) :
    ∃ r st' ρ', get (fuel + 2) st obj none key none (.lit true) = some (r, st') ∧ Agree st.next ρ ρ' ∧ DescribesCross L st' W ρ' ∧
      r.2.den ρ' = (st.contentAt W ρ obj none (key.den ρ)).2 ∧
      (r.2.den ρ' = true → r.1.den ρ' = (st.contentAt W ρ obj none (key.den ρ)).1) ∧
      ∀ o, st'.contentAt W ρ' o none = st.contentAt W ρ o none := by
  obtain ⟨r, st', ρ', hg, hr⟩ := get_any L fuel h obj hk
  refine ⟨r, st', ρ', hg, hr.agree, hr.cross, hr.present, fun hp => hr.value ?_, fun o => ?_⟩
  · rw [← hr.present]; exact hp
  · show content ρ' (W o) (st'.maps o).layers = content ρ (W o) (st.maps o).layers
    rw [(hr.layers o).content]
    refine (content_congr hr.agree _ fun l hl => ?_).symm
    have := (h.plain.maps o).within.layers l (by cases hL : L o <;> simp [State.plain, hL, hl])
    exact this.2

/-- `C19_cross_partial` applies: every key of map 0 is in map 1 with value 5, and is so in the world. -/
example : DescribesCross (fun o => o != 0) (linked hintedInv) (linkedWorld 5) (linkedEnv 3) ∧ (E.var 6).within (linked hintedInv).next ∧
    (linked hintedInv).contentAt (linkedWorld 5) (linkedEnv 3) 0 none ((E.var 6).den (linkedEnv 3)) = (1, true) :=
  ⟨linked_cross _ 5 3 (.present (.hasValue rfl trivial trivial)) (by intro j; by_cases hj : j = 3 <;> simp [hintedInv, iimplies, IB.sem, IE.sem, linkedWorld, E.den, hj]),
    by simp [linked, E.within], rfl⟩

theorem contentAt_plain (L : Nat → Bool) (st : State) (W : Nat → Contents) (ρ : Env) (o : Nat) (ver : Option Nat) :
    (st.plain L).contentAt W ρ o ver = st.contentAt W ρ o ver := by
  unfold State.contentAt State.plain skip
  cases hL : L o <;> simp [hL]

theorem maps'_plain (L : Nat → Bool) (st : State) (W : Nat → Contents) (ρ : Env) : (st.plain L).maps' W ρ = st.maps' W ρ := by
  funext o k
  unfold State.maps'
  rw [contentAt_plain]

theorem plain_layers (L : Nat → Bool) (st : State) (o : Nat) : ((st.plain L).maps o).layers = (st.maps o).layers := by
  cases hL : L o <;> simp [State.plain, hL]

theorem contentAt_cross {L : Nat → Bool} {st st' : State} {W : Nat → Contents} {ρ ρ' : Env} (h : DescribesCross L st W ρ) (ha : Agree st.next ρ ρ') {o : Nat}
    (hl : SameLayers (st'.maps o).layers (st.maps o).layers) : st'.contentAt W ρ' o none = st.contentAt W ρ o none := by
  rw [← contentAt_plain L st', ← contentAt_plain L st]
  exact contentAt_congr h.plain ha (by rw [plain_layers, plain_layers]; exact hl)

theorem maps'_cross {L : Nat → Bool} {st st' : State} {W : Nat → Contents} {ρ ρ' : Env} (h : DescribesCross L st W ρ) (ha : Agree st.next ρ ρ')
    (hl : ∀ o, SameLayers (st'.maps o).layers (st.maps o).layers) : st'.maps' W ρ' = st.maps' W ρ := by
  funext o k
  unfold State.maps'
  rw [contentAt_cross h ha (hl o)]

theorem updatedC_maps' {L : Nat → Bool} {st st' : State} {W : Nat → Contents} {ρ ρ' : Env} {obj k : Nat} {v : Nat × Bool → Prop} (h : DescribesCross L st W ρ)
    (hu : UpdatedC L st W ρ obj k v st' ρ') {x : Option Nat} (hx : ∀ y, v y → (if y.2 then some y.1 else none) = x) :
    st'.maps' W ρ' = Maps.put (st.maps' W ρ) obj k x := by
  funext o j
  unfold State.maps' Maps.put
  by_cases ho : o = obj
  · subst ho
    obtain ⟨y, hy, e⟩ := hu.newest
    rw [e]
    by_cases hj : j = k
    · subst hj
      simp only [Function.update_self, and_self, if_true]
      exact hx y hy
    · simp only [Function.update_of_ne hj, hj, and_false, if_false]
  · simp only [ho, false_and, if_false, contentAt_cross h hu.agree (hu.layers o ho)]

theorem length_cross {L : Nat → Bool} {st : State} {W : Nat → Contents} {ρ : Env} (h : DescribesCross L st W ρ) (obj : Nat) :
    (lengthOf (st.maps obj) (st.maps obj).layers).within st.next ∧
    (lengthOf (st.maps obj) (st.maps obj).layers).den ρ = {j | (st.maps' W ρ obj j).isSome}.ncard := by
  have e : lengthOf ((st.plain L).maps obj) ((st.plain L).maps obj).layers = lengthOf (st.maps obj) (st.maps obj).layers := by
    rw [plain_layers]
    cases hL : L obj with
    | true => rw [plain_maps_of hL]
    | false => rw [plain_maps_not hL, lengthOf_noInvs]
  rw [← e, ← maps'_plain L]
  exact ⟨lengthOf_within (h.plain.maps obj).within 0, length_card h.plain obj⟩

theorem prog_cross (L : Nat → Bool) (fuel : Nat) (W : Nat → Contents) : ∀ (p : Prog) (st : State) (ρ : Env), DescribesCross L st W ρ → p.CleanCross L (fuel + 2) W st ρ →
    ∃ st' ρ', p.run (fuel + 2) st = some st' ∧ Agree st.next ρ ρ' ∧ st.next ≤ st'.next ∧ DescribesCross L st' W ρ' ∧ p.Faithful (fuel + 2) ρ' (st.maps' W ρ) st := by
  intro p
  induction p with
  | done => exact fun st ρ h _ => ⟨st, ρ, rfl, Agree.refl _ _, Nat.le_refl _, h, trivial⟩
  | get obj key k ih =>
    intro st ρ h hc
    obtain ⟨r, st1, ρ1, hg, hr⟩ := get_any L fuel h obj hc.1
    obtain ⟨st', ρ', h1, h2, h2', h3, h4⟩ := ih r.1 r.2 st1 ρ1 hr.cross (hc.2 r st1 ρ1 hg hr.agree hr.cross)
    rw [maps'_cross h hr.agree hr.layers] at h4
    refine ⟨st', ρ', by unfold Prog.run; rw [hg]; exact h1, hr.agree.trans h2 hr.next, hr.next.trans h2', h3, ?_⟩
    unfold Prog.Faithful
    rw [hg]
    refine ⟨?_, h4⟩
    rw [← B.den_congr h2 _ hr.within.2, ← E.den_congr h2 _ hr.within.1, ← E.den_congr (hr.agree.trans h2 hr.next) _ hc.1, hr.present]
    unfold State.maps'
    cases hp : (st.contentAt W ρ obj none (key.den ρ)).2 with
    | false => simp
    | true => simp [hr.value hp]
  | length obj k ih =>
    intro st ρ h hc
    obtain ⟨st', ρ', h1, h2, h2', h3, h4⟩ := ih _ st ρ h hc
    refine ⟨st', ρ', h1, h2, h2', h3, ?_, h4⟩
    exact (E.den_congr h2 _ (length_cross h obj).1).symm.trans (length_cross h obj).2
  | set obj key value k ih =>
    intro st ρ h hc
    obtain ⟨hL, hgd, hk, hv, hu, hf, hroom, hc⟩ := hc
    obtain ⟨st1, ρ1, hs, hu⟩ := set_cross L fuel h obj hL hgd hk hv hu hf hroom
    obtain ⟨st', ρ', h1, h2, h2', h3, h4⟩ := ih st1 ρ1 hu.cross (hc st1 ρ1 hs hu.agree hu.cross)
    have ha := hu.agree.trans h2 hu.next
    refine ⟨st', ρ', by unfold Prog.run; rw [hs]; exact h1, ha, hu.next.trans h2', h3, ?_⟩
    unfold Prog.Faithful
    rw [hs]
    show Prog.Faithful _ _ _ _ _
    rw [updatedC_maps' h hu (x := some (value.den ρ)) (by rintro _ rfl; rfl)] at h4
    rw [← E.den_congr ha _ hk, ← E.den_congr ha _ hv]
    exact h4
  | remove obj key k ih =>
    intro st ρ h hc
    obtain ⟨hL, hgd, hk, hu, hf, hc⟩ := hc
    obtain ⟨st1, ρ1, hs, hu⟩ := remove_cross L fuel h obj hL hgd hk hu hf
    obtain ⟨st', ρ', h1, h2, h2', h3, h4⟩ := ih st1 ρ1 hu.cross (hc st1 ρ1 hs hu.agree hu.cross)
    have ha := hu.agree.trans h2 hu.next
    refine ⟨st', ρ', by unfold Prog.run; rw [hs]; exact h1, ha, hu.next.trans h2', h3, ?_⟩
    unfold Prog.Faithful
    rw [hs]
    show Prog.Faithful _ _ _ _ _
    rw [updatedC_maps' h hu (x := none) (by intro y hy; simp [hy])] at h4
    rw [← E.den_congr ha _ hk]
    exact h4
  | assume c k ih =>
    intro st ρ h hc
    have hd : DescribesCross L (st.add [c]) W ρ := h.add (by simpa using ⟨hc.1, hc.2.1⟩)
    obtain ⟨st', ρ', h1, h2, h2', h3, h4⟩ := ih _ ρ hd hc.2.2
    refine ⟨st', ρ', h1, h2, h2', h3, ?_, h4⟩
    rw [← B.den_congr h2 _ hc.1]; exact hc.2.1

/-- C20 (and C19 for whole histories), also for invariants that read other maps, for programs that are `CleanCross`: the verifier
runs the program to its end, no world is lost, and every read, length and update agrees with the same program on ordinary maps.
What is missing: what `C20_program_partial` and `C19_cross_partial` leave out, and updates of maps that invariants read. -/
theorem C20_cross_program_partial (L : Nat → Bool) (fuel : Nat) (W : Nat → Contents) (st : State) (ρ : Env) (p : Prog) (h : DescribesCross L st W ρ)
    (hc : p.CleanCross L (fuel + 2) W st ρ) :
    ∃ st' ρ', p.run (fuel + 2) st = some st' ∧ Agree st.next ρ ρ' ∧ DescribesCross L st' W ρ' ∧ p.Faithful (fuel + 2) ρ' (st.maps' W ρ) st := by
  obtain ⟨st', ρ', h1, h2, -, h3, h4⟩ := prog_cross L fuel W p st ρ h hc
  exact ⟨st', ρ', h1, h2, h3, h4⟩

/-- `C20_cross_program_partial` applies: read a key of a map whose keys are all in another map, and set it. -/
example : DescribesCross (fun o => o != 0) (linked linkInv) (linkedWorld 5) (linkedEnv 3) ∧
    (Prog.get 0 (.var 6) fun v _ => .set 0 (.var 6) v .done).CleanCross (fun o => o != 0) 2 (linkedWorld 5) (linked linkInv) (linkedEnv 3) := by
  have hg : ∀ n, Guarded n (fun o => o != 0) linkInv := fun n => .present ⟨rfl, trivial⟩
  have hd := linked_cross linkInv 5 3 (.guarded (hg 7)) (by intro j; by_cases hj : j = 3 <;> simp [linkInv, iimplies, IB.sem, IE.sem, linkedWorld, hj])
  refine ⟨hd, by simp [linked, E.within], fun r st' ρ' hget ha hd' => ?_⟩
  obtain ⟨r1, st1, ρ1, hg1, hr1⟩ := get_any (fun o => o != 0) 0 hd 0 (key := .var 6) (by simp [linked, E.within])
  rw [hg1] at hget
  obtain ⟨rfl, rfl⟩ : r1 = r ∧ st1 = st' := by simpa using hget
  refine ⟨rfl, fun i hi => ?_, E.within_mono hr1.next _ (by simp [linked, E.within]), hr1.within.1, ?_, ?_, ?_, fun _ _ _ _ _ => trivial⟩
  · rw [hr1.invs 0 rfl] at hi
    obtain rfl : i = linkInv := by simpa [linked] using hi
    exact hg _
  · rw [hr1.unknown 0 rfl]
    show ρ'.bv 6 ≠ ρ'.bv 0
    rw [← (ha 6 (by simp [linked])).1, ← (ha 0 (by simp [linked])).1]
    simp [linkedEnv]
  · rw [flattens_same (hr1.layers 0)]; rfl
  · rw [contentAt_cross hd ha (hr1.layers 0)]
    intro S hS
    have : S ⊆ {3} := fun k hk => by
      have h2 : (linkedWorld 5 0 k).2 = true := (hS k).1 hk
      unfold linkedWorld at h2
      by_cases h : k = 3
      · simp [h]
      · simp [h] at h2
    have := Finset.card_le_card this
    simp at this
    omega

/-! Witnesses. -/

/-- What a read that finds no match does, for a map that has not been updated, whatever its invariants. -/
private theorem get_new (fuel : Nat) (st : State) (obj : Nat) (ver : Option Nat) (key : E) (hint : Option E) (cond : B) (bs : List B) (st2 : State)
    (hl : (st.maps obj).layers = []) (he : isEmpty (st.maps obj).baseLength = false)
    (hm : exactMatch st.constraints key ((st.maps obj).base ++ [(st.maps obj).unknown]) cond = none)
    (ha : applyInvs (get fuel) ⟨key, .var st.next, .var st.next⟩ cond
      (({ st with next := st.next + 1 }.add (hintConstraint cond (.var st.next) hint)).setMap obj
        { st.maps obj with base := (st.maps obj).base ++ [(⟨key, .var st.next, .var st.next⟩ : Item)] }) (st.maps obj).invs = some (bs, st2))
    (hl2 : (st2.maps obj).layers = []) :
    get (fuel + 1) st obj ver key hint cond = some ((.var st.next, .var st.next),
      st2.add (sameAs ⟨key, .var st.next, .var st.next⟩ ((st.maps obj).base ++ [(st.maps obj).unknown]) ++
        bs.map (implies (isUnknown key (st.maps obj).base)) ++ [notOverfull st2.constraints (st2.maps obj).baseLength (st2.maps obj).base])) := by
  have hself : ∀ (s : State) (d : Nat), (s.maps obj).layers = [] → s.setMap obj ((s.maps obj).setLower d []) = s := by
    intro s d h
    simp only [State.setMap]
    congr 1
    funext o
    by_cases ho : o = obj
    · subst ho; rw [if_pos rfl, MapS.setLower, h, List.take_nil, List.nil_append, ← h]
    · simp [ho]
  unfold Verif.Tool.GhostMap.get
  simp only [hl, List.drop_nil, lengthOf, he, Bool.false_eq_true, if_false, known]
  rw [hself st _ hl, hm]
  unfold getNew
  simp only [ha, overfullCheck, hl2, List.drop_nil, known, lengthOf]
  rw [hself st2 _ hl2]

/-- A read of a map that has not been updated at a key that has been read. -/
private theorem get_again (fuel : Nat) (st : State) (obj : Nat) (ver : Option Nat) (key : E) (hint : Option E) (cond : B) (i : Item)
    (hl : (st.maps obj).layers = []) (he : isEmpty (st.maps obj).baseLength = false)
    (hm : exactMatch st.constraints key ((st.maps obj).base ++ [(st.maps obj).unknown]) cond = some i) :
    get (fuel + 1) st obj ver key hint cond = some ((i.value, i.present), st) := by
  have hself : ∀ d : Nat, st.setMap obj ((st.maps obj).setLower d []) = st := by
    intro d
    simp only [State.setMap]
    congr 1
    funext o
    by_cases ho : o = obj
    · subst ho; rw [if_pos rfl, MapS.setLower, hl, List.take_nil, List.nil_append, ← hl]
    · simp [ho]
  unfold Verif.Tool.GhostMap.get
  simp only [hl, List.drop_nil, lengthOf, he, Bool.false_eq_true, if_false, known]
  rw [hself, hm]

/-- The invariant that every key of map 0 is in map 1 with value 5, or is 3: what weakening (ghostmaps.py:617) makes of the
invariant without the second part when key 3 does not satisfy it. -/
def weakenedInv : IB := iimplies .present (.or (.mapHasValue 1 .key (.lift (.const 5)) none) (.rel (fun x y => x == y) .key (.lift (.const 3))))

/-- C19 is false in general for invariants with expected values. Map 0 holds key 3, and all its keys are in map 1 with value 5 or
are 3; map 1 holds key 3 with value 9. After a read of map 0 at a key K, in every assignment that satisfies the constraints and
where K = 3 is present, map 1 has the value 5 at K; there are such assignments. The expected value is taken for granted although
it is in one of two alternatives. -/
theorem C19_hint_lost : ∃ (st st' st'' : State) (W : Nat → Contents) (ρ : Env) (K : E) (r s : E × B),
    Describes (st.plain fun o => o != 0) W ρ ∧ (∀ inv ∈ (st.maps 0).invs, ∀ k, inv.sem (fun o _ => W o) ρ k (W 0 k).1 (W 0 k).2 = true) ∧
    K.within st.next ∧ K.den ρ = 3 ∧ W 0 3 = (1, true) ∧ W 1 3 = (9, true) ∧
    get 2 st 0 none K none (.lit true) = some (r, st') ∧ get 2 st' 1 none K none (.lit true) = some (s, st'') ∧
    (∀ ρ', sat st''.constraints ρ' → K.den ρ' = 3 → r.2.den ρ' = true → s.1.den ρ' = 5) ∧
    ∃ ρ', sat st''.constraints ρ' ∧ K.den ρ' = 3 ∧ r.2.den ρ' = true := by
  -- an assignment that satisfies everything
  set ρw : Env := ⟨fun i => if i = 0 then 10 else if i = 2 then 11 else if i = 4 ∨ i = 5 then 1 else if i = 6 then 3 else if i = 8 then 5 else 0,
    fun i => decide (i = 7 ∨ i = 8)⟩ with hρw
  set c : B := .and (.var 7) (.lit true) with hc
  -- the read of map 1
  set st1 : State := ({ linked weakenedInv with next := 8 }.add []).setMap 0 { (linked weakenedInv).maps 0 with base := [⟨.var 6, .var 7, .var 7⟩] } with hst1
  have h1 := get_new 0 st1 1 none (.var 6) (some (.const 5)) c []
    (({ st1 with next := 9 }.add [implies c ((E.var 8).eq (.const 5))]).setMap 1 { st1.maps 1 with base := [⟨.var 6, .var 8, .var 8⟩] }) rfl rfl
    (exactMatch_none (ρ := ρw) (by simp [sat, hst1, linked, State.add, State.setMap]) (by simp [hst1, linked, State.add, State.setMap])
      (by simp [hst1, linked, State.add, State.setMap, E.den, hρw]) rfl) rfl rfl
  set st2 : State := State.add (({ st1 with next := 9 }.add [implies c ((E.var 8).eq (.const 5))]).setMap 1 { st1.maps 1 with base := [⟨.var 6, .var 8, .var 8⟩] }) _ with hst2
  -- the read of map 0
  have h2 := get_new 1 (linked weakenedInv) 0 none (.var 6) none (.lit true)
    [.or (.not (.var 7)) (.or (.and (.var 8) ((E.var 8).eq (.const 5))) (.rel (fun x y => x == y) (.var 6) (.const 3)))] st2 rfl rfl
    (exactMatch_none (ρ := ρw) (by simp [sat, linked]) (by simp [linked]) (by simp [linked, E.den, hρw]) rfl)
    (by
      show applyInvs _ ⟨.var 6, .var 7, .var 7⟩ _ st1 [weakenedInv] = _
      simp only [applyInvs, applyInv, weakenedInv, iimplies, evalB, evalE, ← hc, h1]
      rfl) rfl
  set st3 : State := st2.add _ with hst3
  -- the second read of map 1
  have h3 := get_again 1 st3 1 none (.var 6) none (.lit true) ⟨.var 6, .var 8, .var 8⟩ rfl rfl
    (exactMatch_hit (by simp [hst3, hst2, hst1, linked, State.add, State.setMap]))
  refine ⟨linked weakenedInv, st3, st3, linkedWorld 9, linkedEnv 3, .var 6, _, _, linked_describes _ 9 3, ?_, by simp [linked, E.within], rfl, rfl, rfl, h2, h3, ?_,
    ρw, ?_, by simp [E.den, hρw], by simp [B.den, hρw, linked]⟩
  · intro inv hinv k
    obtain rfl : inv = weakenedInv := by simpa [linked] using hinv
    by_cases hk : k = 3 <;> simp [weakenedInv, iimplies, IB.sem, IE.sem, linkedWorld, E.den, hk]
  · intro ρ' hs hK hp
    have hh := hs (implies c ((E.var 8).eq (.const 5))) (by simp [hst3, hst2, State.add, State.setMap])
    have hp' : ρ'.bl 7 = true := hp
    have := (den_implies ρ' _ _).1 hh (by simp [hc, B.den, hp'])
    simpa [den_eq, E.den] using this
  · have hno : ∀ (cs : List B) (l : E) (is : List Item), ((knownLength (.const 0) [] is).le l).den ρw = true → (notOverfull cs l is).den ρw = true := by
      intro cs l is h
      unfold notOverfull
      split
      · rfl
      · exact h
    intro x hx
    simp only [hst3, hst2, hst1, State.add, State.setMap, linked, List.mem_append, sameAs, List.map_cons, List.map_nil, List.mem_cons, List.not_mem_nil, or_false,
      List.nil_append, if_true, one_ne_zero, if_false] at hx
    rcases hx with ((rfl | rfl) | rfl) | (rfl | rfl) | rfl
    · simp [implies, B.den, den_eq, E.den, hρw]
    · simp [implies, B.den, den_eq, E.den, hρw]
    · exact hno _ _ _ (by simp [knownLength, E.le, B.den, E.den, E.add, andAll, hρw])
    · simp [implies, B.den, den_eq, E.den, hρw]
    · exact hno _ _ _ (by simp [knownLength, E.le, B.den, E.den, E.add, andAll, hρw])
    · simp [implies, B.den, den_eq, E.den, hρw]

/-- What a read that finds no match does, for the newest version of a map, whatever its invariants. -/
private theorem get_layered (fuel : Nat) (st : State) (obj : Nat) (key : E) (its its2 : List Item) (ls ls2 : List Layer) (bs : List B) (st2 : State)
    (he : isEmpty (lengthOf (st.maps obj) (st.maps obj).layers) = false)
    (hk : known (st.maps obj).base (st.maps obj).layers = (its, ls))
    (hm : exactMatch st.constraints key (its ++ [(st.maps obj).unknown]) (.lit true) = none)
    (ha : applyInvs (get fuel) ⟨key, .var st.next, .var st.next⟩ (.lit true)
      ({ st with next := st.next + 1 }.setMap obj { st.maps obj with base := (st.maps obj).base ++ [(⟨key, .var st.next, .var st.next⟩ : Item)], layers := ls })
      (st.maps obj).invs = some (bs, st2))
    (hk2 : known (st2.maps obj).base (st2.maps obj).layers = (its2, ls2)) :
    get (fuel + 1) st obj none key none (.lit true) = some ((.var st.next, .var st.next),
      (st2.setMap obj { st2.maps obj with layers := ls2 }).add (sameAs ⟨key, .var st.next, .var st.next⟩ (its ++ [(st.maps obj).unknown]) ++
        bs.map (implies (isUnknown key its)) ++ [notOverfull st2.constraints (lengthOf (st2.maps obj) (st2.maps obj).layers) its2])) := by
  unfold Verif.Tool.GhostMap.get
  simp only [skip, List.drop_zero, he, Bool.false_eq_true, if_false, hk, MapS.setLower, List.take_zero, List.nil_append]
  have hm' : exactMatch (st.setMap obj { st.maps obj with layers := ls }).constraints key (its ++ [(st.maps obj).unknown]) (.lit true) = none := hm
  rw [hm']
  unfold getNew
  have hs : (({ st.setMap obj { st.maps obj with layers := ls } with next := st.next + 1 }.add (hintConstraint (.lit true) (.var st.next) none)).setMap obj
      { (st.setMap obj { st.maps obj with layers := ls }).maps obj with base := ((st.setMap obj { st.maps obj with layers := ls }).maps obj).base ++ [(⟨key, .var st.next, .var st.next⟩ : Item)] }) =
      ({ st with next := st.next + 1 }.setMap obj { st.maps obj with base := (st.maps obj).base ++ [(⟨key, .var st.next, .var st.next⟩ : Item)], layers := ls }) := by
    simp only [State.setMap, State.add, hintConstraint, List.nil_append, if_true, State.mk.injEq, true_and]
    funext o
    by_cases ho : o = obj <;> simp [ho]
  have hi : ((st.setMap obj { st.maps obj with layers := ls }).maps obj).invs = (st.maps obj).invs := by simp [State.setMap]
  have hu : ((st.setMap obj { st.maps obj with layers := ls }).maps obj).unknown = (st.maps obj).unknown := by simp [State.setMap]
  have hn : (st.setMap obj { st.maps obj with layers := ls }).next = st.next := rfl
  have hinv := ha
  rw [← hs, ← hi] at hinv
  simp only [hn, hinv]
  simp only [hu, overfullCheck, List.drop_zero, hk2, MapS.setLower, List.take_zero, List.nil_append]

private theorem knownLength_length (ρ : Env) : ∀ (is : List Item) (n : E) (keys : List E), (knownLength n keys is).den ρ ≤ n.den ρ + is.length
  | [], _, _ => Nat.le_refl _
  | i :: is, n, keys => by
    unfold knownLength
    refine (knownLength_length ρ is _ _).trans ?_
    simp only [E.add, E.den, List.length_cons]
    have := Nat.mod_le (n.den ρ + if (B.and (andAll (keys.map fun k => .not (i.key.eq k))) i.present).den ρ then 1 else 0) (2 ^ 64)
    split at this <;> split <;> simp_all <;> omega

/-- `linked` with a second key of the program, symbol 7. -/
def linkedTwo (inv : IB) : State := { linked inv with next := 8 }

/-- A world where the first map is empty and the others hold key 3 with value 9. -/
def emptyWorld : Nat → Contents := fun o k => if o ≠ 0 ∧ k = 3 then (9, true) else (0, false)

/-- An assignment for it, where both keys of the program are 3. -/
def emptyEnv : Env := ⟨fun i => if i = 0 then 10 else if i = 2 then 11 else if i = 5 then 1 else if i = 6 ∨ i = 7 then 3 else 0, fun _ => false⟩

private theorem linkedTwo_describes (inv : IB) : Describes ((linkedTwo inv).plain fun o => o != 0) emptyWorld emptyEnv := by
  refine ⟨by simp [sat, linked, linkedTwo, State.plain], by simp [linked, linkedTwo, State.plain], fun o => ?_⟩
  by_cases ho : o = 0
  · subst ho
    refine ⟨⟨by simp [linkedTwo, linked, State.plain], by simp [linkedTwo, linked, State.plain, E.within], by simp [linkedTwo, linked, State.plain, Item.within, E.within, B.within],
      by simp [linkedTwo, linked, State.plain], by simp [linkedTwo, linked, State.plain]⟩, trivial, by simp [linkedTwo, linked, State.plain], by simp [BaseOk, linkedTwo, linked, State.plain],
      by simp [Untouched, linkedTwo, linked, State.plain], by simp [linkedTwo, linked, State.plain, Item.ok, E.den, B.den, emptyWorld, emptyEnv], by simp [linkedTwo, linked, State.plain],
      by simp [linkedTwo, linked, State.plain], fun d => ?_⟩
    exact ⟨∅, fun j => by simp [linkedTwo, linked, State.plain, content, emptyWorld], by simp [linkedTwo, linked, State.plain, lengthOf, E.den, emptyEnv], by simp⟩
  · refine ⟨⟨by simp [linkedTwo, linked, State.plain, ho], by simp [linkedTwo, linked, State.plain, E.within, ho], by simp [linkedTwo, linked, State.plain, Item.within, E.within, B.within, ho],
      by simp [linkedTwo, linked, State.plain, ho], by simp [linkedTwo, linked, State.plain, ho]⟩, by simp [CacheOk, linkedTwo, linked, State.plain, ho],
      by simp [linkedTwo, linked, State.plain, ho], by simp [BaseOk, linkedTwo, linked, State.plain, ho],
      by simp [Untouched, linkedTwo, linked, State.plain, ho], by simp [linkedTwo, linked, State.plain, Item.ok, E.den, B.den, emptyWorld, emptyEnv, ho], by simp [linkedTwo, linked, State.plain, ho],
      by simp [linkedTwo, linked, State.plain, ho], fun d => ?_⟩
    refine ⟨{3}, fun j => ?_, by simp [linkedTwo, linked, State.plain, lengthOf, E.den, emptyEnv, ho], by simp⟩
    by_cases hj : j = 3 <;> simp [linkedTwo, linked, State.plain, content, emptyWorld, ho, hj]

/-- C19 is false in general for invariants with expected values of maps that have been updated. Map 0 is empty, all its keys are
in map 1 with value 5, and map 1 holds key 3 with value 9. Map 0 is set at a key K1 and then read at a key K2. In every
assignment that satisfies the constraints and where both keys are the same, map 1 has the value 5 at K2; there are such
assignments where the key is 3. The expected value is taken for granted although the item that is read was set. -/
theorem C19_hint_updated_lost : ∃ (st st1 st2 st3 : State) (W : Nat → Contents) (ρ : Env) (K1 K2 : E) (r s : E × B),
    Describes (st.plain fun o => o != 0) W ρ ∧ (∀ inv ∈ (st.maps 0).invs, ∀ k, inv.sem (fun o _ => W o) ρ k (W 0 k).1 (W 0 k).2 = true) ∧
    K1.within st.next ∧ K2.within st.next ∧ K1.den ρ = 3 ∧ K2.den ρ = 3 ∧ W 1 3 = (9, true) ∧
    set 2 st 0 K1 (.const 1) = some st1 ∧ get 2 st1 0 none K2 none (.lit true) = some (r, st2) ∧ get 2 st2 1 none K2 none (.lit true) = some (s, st3) ∧
    (∀ ρ', sat st3.constraints ρ' → K1.den ρ' = K2.den ρ' → s.1.den ρ' = 5) ∧
    ∃ ρ', sat st3.constraints ρ' ∧ K1.den ρ' = 3 ∧ K2.den ρ' = 3 := by
  -- an assignment that satisfies everything, for two values of the second key
  set ρw : Nat → Env := fun k => ⟨fun i => if i = 0 then 10 else if i = 2 then 11 else if i = 4 ∨ i = 5 then 100 else if i = 6 then 3 else if i = 7 then k else
    if i = 10 then 1 else if i = 9 ∨ i = 11 then 5 else 0, fun i => decide (i = 9 ∨ i = 10 ∨ i = 11)⟩ with hρw
  have hno : ∀ (k : Nat) (cs : List B) (l : E) (is : List Item), ((knownLength (.const 0) [] is).le l).den (ρw k) = true → (notOverfull cs l is).den (ρw k) = true := by
    intro k cs l is h
    unfold notOverfull
    split
    · rfl
    · exact h
  -- the first read of map 1
  set c : B := .and (.var 8) (.lit true) with hc
  set ρc : Env := ⟨fun i => if i = 6 then 3 else 10, fun _ => true⟩ with hρc
  set st1 : State := ({ linkedTwo hintedInv with next := 9 }.add []).setMap 0 { (linkedTwo hintedInv).maps 0 with base := [⟨.var 6, .var 8, .var 8⟩] } with hst1
  have h1 := get_new 0 st1 1 none (.var 6) (some (.const 5)) c []
    (({ st1 with next := 10 }.add [implies c ((E.var 9).eq (.const 5))]).setMap 1 { st1.maps 1 with base := [⟨.var 6, .var 9, .var 9⟩] }) rfl rfl
    (exactMatch_none (ρ := ρc) (by simp [sat, hst1, linkedTwo, linked, State.add, State.setMap]) (by simp [hst1, linkedTwo, linked, State.add, State.setMap])
      (by simp [hst1, linkedTwo, linked, State.add, State.setMap, E.den, hρc]) rfl) rfl rfl
  set st2 : State := State.add (({ st1 with next := 10 }.add [implies c ((E.var 9).eq (.const 5))]).setMap 1 { st1.maps 1 with base := [⟨.var 6, .var 9, .var 9⟩] }) _ with hst2
  -- the first read of map 0
  have h2 := get_new 1 (linkedTwo hintedInv) 0 none (.var 6) none (.lit true)
    [.or (.not (.var 8)) (.and (.var 9) ((E.var 9).eq (.const 5)))] st2 rfl rfl
    (exactMatch_none (ρ := ρc) (by simp [sat, linked, linkedTwo]) (by simp [linked, linkedTwo]) (by simp [linked, linkedTwo, E.den, hρc]) rfl)
    (by
      show applyInvs _ ⟨.var 6, .var 8, .var 8⟩ _ st1 [hintedInv] = _
      simp only [applyInvs, applyInv, hintedInv, iimplies, evalB, evalE, ← hc, h1]
      rfl) rfl
  set st3 : State := st2.add _ with hst3
  have hs3 : ∀ k, sat st3.constraints (ρw k) := by
    intro k x hx
    simp only [hst3, hst2, hst1, State.add, State.setMap, linkedTwo, linked, List.mem_append, sameAs, List.map_cons, List.map_nil, List.mem_cons, List.not_mem_nil, or_false,
      List.nil_append, if_true, one_ne_zero, if_false] at hx
    rcases hx with ((rfl | rfl) | rfl) | (rfl | rfl) | rfl
    · simp [implies, B.den, den_eq, E.den, hρw]
    · simp [implies, B.den, den_eq, E.den, hρw]
    · exact hno _ _ _ _ (by simp [knownLength, E.le, B.den, E.den, E.add, andAll, hρw])
    · simp [implies, B.den, den_eq, E.den, hρw]
    · exact hno _ _ _ _ (by simp [knownLength, E.le, B.den, E.den, E.add, andAll, hρw])
    · simp [implies, B.den, den_eq, E.den, hρw, hc]
  obtain ⟨p, hp, hpw, hpd⟩ := constantOr_some (b := .var 8) (n := 9) (hs3 3) (by simp [B.within])
  have hset := set_of_get (value := .const 1) h2 hp
  set st4 := st3.setMap 0 _ with hst4
  have hm4 : st4.maps 0 = ⟨[hintedInv], [⟨.var 6, .var 8, .var 8⟩], .var 4, ⟨.var 0, .var 1, .var 0⟩,
      [⟨[⟨.var 6, .const 1, .lit true⟩], (E.var 4).add (.ite p (.const 0) (.const 1)), (0, [])⟩]⟩ := by
    rw [hst4]; simp [State.setMap, withItemLayer, hst3, hst2, hst1, State.add, linkedTwo, linked, flattens, lengthOf]
  have ho4 : st4.maps 1 = ⟨[], [⟨.var 6, .var 9, .var 9⟩], .var 5, ⟨.var 2, .var 3, .var 2⟩, []⟩ := by
    rw [hst4]; simp [State.setMap, hst3, hst2, hst1, State.add, linkedTwo, linked]
  have hn4 : st4.next = 10 := rfl
  have hc4 : st4.constraints = st3.constraints := rfl
  set len : E := (E.var 4).add (.ite p (.const 0) (.const 1)) with hlen
  set li : Item := ⟨.var 6, .const 1, .lit true⟩ with hli
  -- the second read of map 1
  set c2 : B := .and (.var 10) (.lit true) with hc2
  set st5 : State := { st4 with next := 11 }.setMap 0 ⟨[hintedInv], [⟨.var 6, .var 8, .var 8⟩, ⟨.var 7, .var 10, .var 10⟩], .var 4, ⟨.var 0, .var 1, .var 0⟩, [⟨[li], len, (1, [])⟩]⟩ with hst5
  have ho5 : st5.maps 1 = st4.maps 1 := by simp [hst5, State.setMap]
  have hc5 : st5.constraints = st3.constraints := rfl
  have h3 := get_new 0 st5 1 none (.var 7) (some (.const 5)) c2 []
    (({ st5 with next := 12 }.add [implies c2 ((E.var 11).eq (.const 5))]).setMap 1 { st5.maps 1 with base := (st5.maps 1).base ++ [(⟨.var 7, .var 11, .var 11⟩ : Item)] })
    (by rw [ho5, ho4]) (by rw [ho5, ho4]; rfl)
    (exactMatch_none (ρ := ρw 4) (by rw [hc5]; exact hs3 4) (by simp [ho5, ho4]) (by simp [ho5, ho4, E.den, hρw]) (by simp [hc2, B.den, hρw]))
    (by rw [ho5, ho4]; rfl) (by rw [ho5, ho4]; simp [State.setMap])
  set st6 : State := State.add (({ st5 with next := 12 }.add [implies c2 ((E.var 11).eq (.const 5))]).setMap 1
    { st5.maps 1 with base := (st5.maps 1).base ++ [(⟨.var 7, .var 11, .var 11⟩ : Item)] }) _ with hst6
  have hm6 : st6.maps 0 = ⟨[hintedInv], [⟨.var 6, .var 8, .var 8⟩, ⟨.var 7, .var 10, .var 10⟩], .var 4, ⟨.var 0, .var 1, .var 0⟩, [⟨[li], len, (1, [])⟩]⟩ := by
    simp [hst6, hst5, State.add, State.setMap]
  have ho6 : st6.maps 1 = ⟨[], [⟨.var 6, .var 9, .var 9⟩, ⟨.var 7, .var 11, .var 11⟩], .var 5, ⟨.var 2, .var 3, .var 2⟩, []⟩ := by
    simp [hst6, State.add, State.setMap, ho5, ho4]
  -- the second read of map 0
  obtain ⟨its2, ls2, hk2, hl2⟩ : ∃ its2 ls2, known (st6.maps 0).base (st6.maps 0).layers = (its2, ls2) ∧ its2.length ≤ 2 := by
    refine ⟨_, _, rfl, ?_⟩
    rw [hm6]
    have ht : (transform [li] [⟨.var 7, .var 10, .var 10⟩]).length ≤ 1 := by
      simp only [transform, List.length_map]
      exact List.length_filter_le _ _
    simp [known]
    omega
  have h4 := get_layered 1 st4 0 (.var 7) [li] _ [⟨[li], len, (1, [])⟩] _ [.or (.not (.var 10)) (.and (.var 11) ((E.var 11).eq (.const 5)))] st6
    (by rw [hm4]; rfl) (by rw [hm4]; simp [known, transform, hli])
    (exactMatch_none (ρ := ρw 4) (by rw [hc4]; exact hs3 4) (by simp [hm4, hli]) (by simp [hm4, hli, E.den, hρw]) rfl)
    (by
      rw [hm4]
      show applyInvs _ ⟨.var 7, .var 10, .var 10⟩ _ st5 [hintedInv] = _
      simp only [applyInvs, applyInv, hintedInv, iimplies, evalB, evalE, ← hc2, h3]
      rfl) hk2
  set st7 : State := State.add _ _ with hst7
  have ho7 : st7.maps 1 = st6.maps 1 := by simp [hst7, State.add, State.setMap]
  -- the last read of map 1
  have h5 := get_again 1 st7 1 none (.var 7) none (.lit true) ⟨.var 7, .var 11, .var 11⟩ (by rw [ho7, ho6]) (by rw [ho7, ho6]; rfl)
    (exactMatch_hit (by simp [ho7, ho6]))
  refine ⟨linkedTwo hintedInv, st4, st7, st7, emptyWorld, emptyEnv, .var 6, .var 7, _, _, linkedTwo_describes _, ?_, by simp [linkedTwo, E.within], by simp [linkedTwo, E.within],
    rfl, rfl, rfl, hset, h4, h5, ?_, ρw 3, ?_, by simp [E.den, hρw], by simp [E.den, hρw]⟩
  · intro inv hinv k
    obtain rfl : inv = hintedInv := by simpa [linkedTwo, linked] using hinv
    simp [hintedInv, iimplies, IB.sem, emptyWorld]
  · intro ρ' hs hK
    have hh := hs (implies c2 ((E.var 11).eq (.const 5))) (by simp [hst7, hst6, State.add, State.setMap])
    have hsame := hs (implies ((E.var 7).eq (.var 6)) (.and ((E.var 10).eq (.const 1)) (.iff (.var 10) (.lit true)))) (by
      simp [hst7, hst6, State.add, State.setMap, sameAs, hli, hn4])
    have hK' : ρ'.bv 6 = ρ'.bv 7 := hK
    have hp' : ρ'.bv 10 = 1 ∧ ρ'.bl 10 = true := by simpa [implies, B.den, den_eq, E.den, hK'] using ((den_implies ρ' _ _).1 hsame (by simp [den_eq, E.den, hK']))
    have := (den_implies ρ' _ _).1 hh (by simp [hc2, B.den, hp'.2])
    simpa [den_eq, E.den] using this
  · have hkl : ∀ (cs : List B) (l : E) (is : List Item), is.length ≤ l.den (ρw 3) → (notOverfull cs l is).den (ρw 3) = true := by
      intro cs l is h
      refine hno _ _ _ _ ?_
      have := knownLength_length (ρw 3) is (.const 0) []
      simp only [E.den, zero_add] at this
      simp only [E.le, B.den, decide_eq_true_eq]
      omega
    intro x hx
    simp only [hst7, State.add, State.setMap, List.mem_append, sameAs, List.map_append, List.map_cons, List.map_nil, List.mem_cons, List.not_mem_nil, or_false, hm4, hm6, hn4] at hx
    rcases hx with (((rfl | rfl) | rfl) | rfl) | hx
    · simp [implies, B.den, den_eq, E.den, hρw, hli]
    · simp [implies, B.den, den_eq, E.den, hρw]
    · simp [implies, B.den, den_eq, E.den, hρw]
    · refine hkl _ _ _ (hl2.trans ?_)
      have hpf : p.den (ρw 3) = false := by rw [hpd]; simp [B.den, hρw]
      simp [lengthOf, hlen, E.add, E.den, hpf]
      simp [hρw]
    · simp only [hst6, State.add, State.setMap, List.mem_append, sameAs, List.map_append, List.map_cons, List.map_nil, List.mem_cons, List.not_mem_nil, or_false, ho5, ho4, hc5, if_true] at hx
      rcases hx with ((rfl | rfl) | rfl) | rfl | hx
      · simp [implies, B.den, den_eq, E.den, hρw, hst5, State.setMap]
      · simp [implies, B.den, den_eq, E.den, hρw, hst5, State.setMap]
      · exact hkl _ _ _ (by simp [E.den, hρw])
      · simp [implies, B.den, den_eq, E.den, hρw, hc2]
      · exact hs3 3 x hx

/-- The invariant that every key of map 0 is in map 1 with value 7. -/
def chainedInv0 : IB := iimplies .present (.mapHasValue 1 .key (.lift (.const 7)) none)

/-- The invariant that every value of map 1 is a key of map 2. -/
def chainedInv1 : IB := iimplies .present (.mapHas 2 .value none)

/-- Three maps; every key of map 0 is in map 1 with value 7 and every value of map 1 is a key of map 2, which has been read at
key 7 and does not have it. The unknown items are symbols 0 to 5, the lengths are symbols 6 to 8, and symbol 9 is a key of the
program. -/
def chained : State :=
  ⟨[.not (.var 10)], 11, fun o =>
    if o = 0 then ⟨[chainedInv0], [], .var 6, ⟨.var 0, .var 1, .var 0⟩, []⟩
    else if o = 1 then ⟨[chainedInv1], [], .var 7, ⟨.var 2, .var 3, .var 2⟩, []⟩
    else ⟨[], [⟨.const 7, .var 10, .var 10⟩], .var 8, ⟨.var 4, .var 5, .var 4⟩, []⟩⟩

/-- A world where map 0 is empty, map 1 holds key 3 with value 5, and the others hold key 5. -/
def chainedWorld : Nat → Contents := fun o k => if o = 0 then (0, false) else if o = 1 then (if k = 3 then (5, true) else (0, false)) else (0, k == 5)

/-- An assignment for it. -/
def chainedEnv : Env := ⟨fun i => if i = 0 ∨ i = 2 ∨ i = 4 then 10 else if i = 7 ∨ i = 8 then 1 else if i = 9 then 3 else 0, fun _ => false⟩

private theorem chained_describes : Describes (chained.plain fun _ => false) chainedWorld chainedEnv := by
  refine ⟨by simp [sat, chained, State.plain, B.den, chainedEnv], by simp [chained, State.plain, B.within], fun o => ?_⟩
  have key : ∀ (w : Contents) (bs : List Item) (len : E) (u : Item) (S : Finset Nat), u.within 11 → len.within 11 → u.ok chainedEnv w → len.den chainedEnv = S.card →
      (∀ j, j ∈ S ↔ (w j).2 = true) → S.card < 2 ^ 64 → (∀ i ∈ bs, i.within 11 ∧ i.ok chainedEnv w) → MapOk 11 chainedEnv w ⟨[], bs, len, u, []⟩ := by
    intro w bs len u S hu hl hok hlen hw hS hb
    refine ⟨⟨fun i hi => (hb i hi).1, hl, hu, by simp, by simp⟩, trivial, by simp, fun i hi _ => (hb i hi).2, by simp [Untouched], hok, by simp, by simp, fun d => ?_⟩
    simp only [List.drop_nil]
    exact ⟨S, hw, hlen, hS⟩
  by_cases h0 : o = 0
  · subst h0
    exact key _ _ _ _ ∅ (by simp [chained, Item.within, E.within, B.within]) (by simp [chained, E.within]) (by simp [chained, Item.ok, E.den, B.den, chainedEnv, chainedWorld])
      rfl (by simp [chainedWorld]) (by simp) (by simp [chained])
  · by_cases h1 : o = 1
    · subst h1
      exact key _ _ _ _ {3} (by simp [chained, Item.within, E.within, B.within]) (by simp [chained, E.within]) (by simp [chained, Item.ok, E.den, B.den, chainedEnv, chainedWorld])
        rfl (by intro j; by_cases hj : j = 3 <;> simp [chainedWorld, hj]) (by simp) (by simp [chained])
    · simp only [State.plain, chained, h0, h1, if_false, Bool.false_eq_true]
      exact key _ _ _ _ {5} (by simp [Item.within, E.within, B.within]) (by simp [E.within]) (by simp [Item.ok, E.den, B.den, chainedEnv, chainedWorld, h0, h1])
        rfl (by intro j; simp [chainedWorld, h0, h1]) (by simp) (by simp [Item.within, E.within, B.within, Item.ok, E.den, B.den, chainedEnv, chainedWorld, h0, h1])

/-- C19 is false in general for invariants that read maps whose invariants read further maps. Every key of map 0 is in map 1
with value 7, every value of map 1 is a key of map 2, and map 2 does not have the key 7. Map 0 is empty, map 1 holds key 3 with
value 5, and map 2 holds key 5. After a read of map 0 at a key K, in every assignment that satisfies the constraints, K is not in
map 1; there are such assignments where K is 3. The item of map 2 for the value is found under the condition that K is in map 0,
but the invariant of map 1 is required of it whether or not this is so (ghostmaps.py:211). -/
theorem C19_condition_dropped : ∃ (st st' st'' : State) (W : Nat → Contents) (ρ : Env) (K : E) (r s : E × B),
    Describes (st.plain fun _ => false) W ρ ∧ (∀ o, ∀ inv ∈ (st.maps o).invs, ∀ k, inv.sem (fun o _ => W o) ρ k (W o k).1 (W o k).2 = true) ∧
    K.within st.next ∧ K.den ρ = 3 ∧ W 1 3 = (5, true) ∧
    get 3 st 0 none K none (.lit true) = some (r, st') ∧ get 3 st' 1 none K none (.lit true) = some (s, st'') ∧
    (∀ ρ', sat st''.constraints ρ' → s.2.den ρ' = false) ∧ ∃ ρ', sat st''.constraints ρ' ∧ K.den ρ' = 3 := by
  -- an assignment that satisfies everything, for the presence in map 0
  set ρw : Bool → Env := fun b => ⟨fun i => if i = 0 ∨ i = 2 ∨ i = 4 then 10 else if i = 6 ∨ i = 7 ∨ i = 8 then 100 else if i = 9 then 3 else 7, fun i => b && (i == 11)⟩ with hρw
  have hno : ∀ (cs : List B) (l : E) (is : List Item), is.length ≤ l.den (ρw false) → (notOverfull cs l is).den (ρw false) = true := by
    intro cs l is h
    unfold notOverfull
    split
    · rfl
    · have := knownLength_length (ρw false) is (.const 0) []
      simp only [E.den, zero_add] at this
      simp only [E.le, B.den, decide_eq_true_eq]
      omega
  set c : B := .and (.var 11) (.lit true) with hc
  set st1 : State := ({ chained with next := 12 }.add []).setMap 0 { chained.maps 0 with base := [⟨.var 9, .var 11, .var 11⟩] } with hst1
  -- the read of map 2
  set st2 : State := ({ st1 with next := 13 }.add [implies c ((E.var 12).eq (.const 7))]).setMap 1 { st1.maps 1 with base := [⟨.var 9, .var 12, .var 12⟩] } with hst2
  have h0 := get_again 0 st2 2 none (.var 12) none (.and (.var 12) c) ⟨.const 7, .var 10, .var 10⟩ rfl rfl (by
    have hd : definitely st2.constraints (.or (.not (.and (.var 12) c)) ((E.var 12).eq (.const 7))) = true := by
      unfold definitely
      refine @decide_eq_true _ (Classical.propDecidable _) fun ρ' hs => ?_
      have := hs (implies c ((E.var 12).eq (.const 7))) (by simp [hst2, State.add, State.setMap])
      rw [den_implies] at this
      cases hcd : c.den ρ' with
      | false => simp [B.den, hcd]
      | true => simp [B.den, this hcd]
    show exactMatch _ _ [⟨.const 7, .var 10, .var 10⟩, ⟨.var 4, .var 5, .var 4⟩] _ = _
    unfold exactMatch
    have hf : ([⟨.const 7, .var 10, .var 10⟩, ⟨.var 4, .var 5, .var 4⟩] : List Item).find? (fun i => (E.var 12).same i.key) = none := by
      simp [E.same, E.symbolic]
    rw [hf]
    simp [E.symbolic, hd])
  -- the read of map 1
  have h1 := get_new 1 st1 1 none (.var 9) (some (.const 7)) c [.or (.not (.var 12)) (.var 10)] st2 rfl rfl
    (exactMatch_none (ρ := ρw true) (by simp [sat, hst1, chained, State.add, State.setMap, B.den, hρw]) (by simp [hst1, chained, State.add, State.setMap])
      (by simp [hst1, chained, State.add, State.setMap, E.den, hρw]) rfl)
    (by
      show applyInvs _ ⟨.var 9, .var 12, .var 12⟩ _ st2 [chainedInv1] = _
      simp only [applyInvs, applyInv, chainedInv1, iimplies, evalB, evalE, h0]) rfl
  set st3 : State := st2.add _ with hst3
  -- the read of map 0
  have h2 := get_new 2 chained 0 none (.var 9) none (.lit true) [.or (.not (.var 11)) (.and (.var 12) ((E.var 12).eq (.const 7)))] st3 rfl rfl
    (exactMatch_none (ρ := ρw true) (by simp [sat, chained, B.den, hρw]) (by simp [chained]) (by simp [chained, E.den, hρw]) rfl)
    (by
      show applyInvs _ ⟨.var 9, .var 11, .var 11⟩ _ st1 [chainedInv0] = _
      simp only [applyInvs, applyInv, chainedInv0, iimplies, evalB, evalE, ← hc, h1]
      rfl) rfl
  set st4 : State := st3.add _ with hst4
  -- the second read of map 1
  have h3 := get_again 2 st4 1 none (.var 9) none (.lit true) ⟨.var 9, .var 12, .var 12⟩ rfl rfl
    (exactMatch_hit (by simp [hst4, hst3, hst2, hst1, chained, State.add, State.setMap]))
  refine ⟨chained, st4, st4, chainedWorld, chainedEnv, .var 9, _, _, chained_describes, ?_, by simp [chained, E.within], rfl, rfl, h2, h3, ?_,
    ρw false, ?_, by simp [E.den, hρw]⟩
  · intro o inv hinv k
    by_cases ho : o = 0
    · subst ho
      obtain rfl : inv = chainedInv0 := by simpa [chained] using hinv
      simp [chainedInv0, iimplies, IB.sem, chainedWorld]
    · by_cases ho1 : o = 1
      · subst ho1
        obtain rfl : inv = chainedInv1 := by simpa [chained] using hinv
        by_cases hk : k = 3 <;> simp [chainedInv1, iimplies, IB.sem, IE.sem, chainedWorld, hk]
      · simp [chained, ho, ho1] at hinv
  · intro ρ' hs
    have ha := hs (.not (.var 10)) (by simp [hst4, hst3, hst2, hst1, chained, State.add, State.setMap])
    have hi := hs (implies (isUnknown (.var 9) []) (.or (.not (.var 12)) (.var 10))) (by simp [hst4, hst3, hst2, hst1, chained, State.add, State.setMap])
    have ha' : ρ'.bl 10 = false := by simpa [B.den] using ha
    show ρ'.bl 12 = false
    simpa [implies, isUnknown, andAll, B.den, ha'] using hi
  · intro x hx
    simp only [hst4, hst3, hst2, hst1, State.add, State.setMap, chained, List.mem_append, sameAs, List.map_cons, List.map_nil, List.mem_cons, List.not_mem_nil, or_false,
      List.nil_append, if_true, one_ne_zero, if_false] at hx
    rcases hx with ((rfl | rfl) | rfl) | ((rfl | rfl) | rfl) | rfl | rfl
    · simp [implies, B.den, den_eq, E.den, hρw]
    · simp [implies, B.den, den_eq, E.den, hρw]
    · exact hno _ _ _ (by simp [E.den, hρw])
    · simp [implies, B.den, den_eq, E.den, hρw]
    · simp [implies, B.den, hρw]
    · exact hno _ _ _ (by simp [E.den, hρw])
    · simp [implies, B.den, hρw, hc]
    · simp [B.den, hρw]

end Verif.Props
