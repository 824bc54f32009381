/- One update of a ghost map that is not flattened. Used by C20, C23 and C24. -/
import Verif.Props.GhostMapGet
import Verif.Tool.GhostMapProg

set_option autoImplicit false

namespace Verif.Tool.GhostMap

/-- The update left a state that describes the same world, where the map has one more version, with the
given contents, and all the other versions of all the maps are as before. -/
structure Updated (st : State) (W : Nat → Contents) (ρ : Env) (obj : Nat) (k : Nat) (v : Nat × Bool → Prop) (st' : State) (ρ' : Env) : Prop where
  agree : Agree st.next ρ ρ'
  next : st.next ≤ st'.next
  describes : Describes st' W ρ'
  newest : ∃ x, v x ∧ st'.contentAt W ρ' obj none = Function.update (st.contentAt W ρ obj none) k x
  layers : (∃ l ls, (st'.maps obj).layers = l :: ls ∧ SameLayers ls (st.maps obj).layers) ∧ ∀ o, o ≠ obj → SameLayers (st'.maps o).layers (st.maps o).layers
  lengths : ∀ o, (st'.maps o).baseLength = (st.maps o).baseLength
  unknown : ∀ o, (st'.maps o).unknown = (st.maps o).unknown
  base : ∀ o, ∃ extra, (st'.maps o).base = (st.maps o).base ++ extra ∧ ∀ i ∈ extra, o = obj ∧ i.key.den ρ' = k
  prev : ∀ l ls, (st'.maps obj).layers = l :: ls → BaseOk ρ' (W obj) (st'.maps obj).base ls

theorem override_single (ρ : Env) (i : Item) (f : Contents) : override ρ [i] f = Function.update f (i.key.den ρ) (i.value.den ρ, i.present.den ρ) := by
  funext k
  unfold override
  by_cases h : i.key.den ρ = k
  · subst h; simp
  · rw [Function.update_of_ne (Ne.symm h)]
    simp [h]

/-- Adding a layer with one item, whose key is not the unknown one. -/
theorem MapOk.addLayer {n : Nat} {ρ : Env} {w : Contents} {m : MapS} (hm : MapOk n ρ w m) {item : Item} {len : E} (hi : item.within n) (hlen : len.within n)
    (hu : m.unknown.key.den ρ ≠ item.key.den ρ) (ht : (∃ b ∈ m.base, b.key.den ρ = item.key.den ρ) ∨ (w (item.key.den ρ)).2 = false)
    (hl : LenOk ρ (override ρ [item] (content ρ w m.layers)) len) :
    MapOk n ρ w { m with layers := ⟨[item], len, (0, [])⟩ :: m.layers } := by
  have hw := hm.within
  refine ⟨⟨hw.base, hw.length, hw.unknown, ?_, hw.invs⟩, ⟨Nat.zero_le _, by simp [transform], hm.caches⟩, ?_, ?_, ?_, hm.unknown, ?_, hm.invs, ?_⟩
  · intro l hl'
    rcases List.mem_cons.1 hl' with rfl | hl'
    · exact ⟨hlen, fun i h => by rw [List.mem_singleton.1 h]; exact hi⟩
    · exact hw.layers l hl'
  · intro l hl'
    rcases List.mem_cons.1 hl' with rfl | hl'
    · intro i h j h' _; rw [List.mem_singleton.1 h, List.mem_singleton.1 h']
    · exact hm.distinct l hl'
  · intro i h hu'
    exact hm.base i h fun l hl' => hu' l (by simp [hl'])
  · intro l hl' i h
    rcases List.mem_cons.1 hl' with rfl | hl'
    · rw [List.mem_singleton.1 h]; exact Ne.symm hu
    · exact hm.unknownKey l hl' i h
  · intro l hl' i h
    rcases List.mem_cons.1 hl' with rfl | hl'
    · rw [List.mem_singleton.1 h]; exact ht
    · exact hm.touched l hl' i h
  · intro d
    cases d with
    | zero => exact hl
    | succ d =>
      have := hm.length d
      have e : lengthOf { m with layers := ⟨[item], len, (0, [])⟩ :: m.layers } (m.layers.drop d) = lengthOf m (m.layers.drop d) := by
        cases m.layers.drop d <;> rfl
      simp only [List.drop_succ_cons]
      rw [e]; exact this

theorem lenOk_insert {ρ : Env} {f : Contents} {len p : E} {k : Nat} {x : Nat × Bool} (hl : LenOk ρ f len) (hr : HasRoom f)
    (hx : x.2 = true) (hp : p.den ρ = if (f k).2 = true then 0 else 1) : LenOk ρ (Function.update f k x) (len.add p) := by
  obtain ⟨S, hS, hc, hlt⟩ := hl
  have := hr S hS
  refine ⟨insert k S, fun j => ?_, ?_, ?_⟩
  · by_cases hj : j = k
    · subst hj; simp [hx]
    · simp [hj, hS]
  · simp only [E.add, E.den, hc, hp]
    by_cases hf : (f k).2 = true
    · rw [if_pos hf, Finset.insert_eq_of_mem ((hS k).2 hf), Nat.add_zero, Nat.mod_eq_of_lt hlt]
    · rw [if_neg hf, Finset.card_insert_of_notMem (fun h => hf ((hS k).1 h)), Nat.mod_eq_of_lt this]
  · have := Finset.card_insert_le k S
    omega

theorem lenOk_erase {ρ : Env} {f : Contents} {len p : E} {k : Nat} {x : Nat × Bool} (hl : LenOk ρ f len)
    (hx : x.2 = false) (hp : p.den ρ = if (f k).2 = true then 2 ^ 64 - 1 else 0) : LenOk ρ (Function.update f k x) (len.add p) := by
  obtain ⟨S, hS, hc, hlt⟩ := hl
  refine ⟨S.erase k, fun j => ?_, ?_, ?_⟩
  · by_cases hj : j = k
    · subst hj; simp [hx]
    · simp [hj, hS]
  · simp only [E.add, E.den, hc, hp]
    by_cases hf : (f k).2 = true
    · have hmem := (hS k).2 hf
      have hpos := Finset.card_pos.2 ⟨k, hmem⟩
      rw [if_pos hf, Finset.card_erase_of_mem hmem]
      omega
    · rw [if_neg hf, Finset.erase_eq_of_notMem (fun h => hf ((hS k).1 h)), Nat.add_zero, Nat.mod_eq_of_lt hlt]
  · have := Finset.card_erase_le (s := S) (a := k)
    omega

theorem flattens_same {a b : List Layer} (h : SameLayers a b) (key : E) : flattens a key = flattens b key := by
  cases a with
  | nil => cases b with
    | nil => rfl
    | cons => simp [SameLayers] at h
  | cons x a => cases b with
    | nil => simp [SameLayers] at h
    | cons y b =>
      simp only [SameLayers, List.map_cons, List.cons.injEq, Prod.mk.injEq] at h
      simp only [flattens, h.1.1]

theorem constantOr_some {cs : List B} {b : B} {n : Nat} {ρ : Env} (hs : sat cs ρ) (hb : b.within n) :
    ∃ p, constantOr cs b = some p ∧ p.within n ∧ p.den ρ = b.den ρ := by
  unfold constantOr
  split
  · rename_i h1
    have := definitely_sound h1 hs
    split
    · rename_i h2
      have := definitely_sound h2 hs
      simp_all [B.den]
    · exact ⟨_, rfl, trivial, this.symm⟩
  · split
    · rename_i h2
      have := definitely_sound h2 hs
      exact ⟨_, rfl, trivial, by simpa [B.den] using this.symm⟩
    · exact ⟨_, rfl, hb, rfl⟩

/-- The common part of `set` and `remove`. -/
theorem layer_updated {st : State} {W : Nat → Contents} {ρ : Env} {obj : Nat} {key : E} {r : E × B} {st1 st2 : State} {ρ1 ρ2 : Env}
    (h : Describes st W ρ) (hr : Read st W ρ obj none key (.lit true) r st1 ρ1) (hk : key.within st.next)
    (hu : key.den ρ ≠ (st.maps obj).unknown.key.den ρ) (hf : flattens (st.maps obj).layers key = false)
    (ha2 : Agree st1.next ρ1 ρ2) (hn2 : st1.next ≤ st2.next) (hd2 : Describes st2 W ρ2) (hm2 : st2.maps = st1.maps)
    {value : E} {present : B} {change : E} (hv : value.within st2.next) (hp : present.within st2.next) (hc : change.within st2.next)
    (hlen : ∀ f : Contents, f = content ρ (W obj) (st.maps obj).layers → LenOk ρ2 f (lengthOf (st.maps obj) (st.maps obj).layers) →
      LenOk ρ2 (Function.update f (key.den ρ) (value.den ρ2, present.den ρ2)) ((lengthOf (st.maps obj) (st.maps obj).layers).add change)) :
    Updated st W ρ obj (key.den ρ) (fun x => x = (value.den ρ2, present.den ρ2))
      (st2.setMap obj (withItemLayer (st2.maps obj) ⟨key, value, present⟩ change)) ρ2 := by
  have hagree : Agree st.next ρ ρ2 := hr.agree.trans ha2 hr.next
  have hnext : st.next ≤ st2.next := hr.next.trans hn2
  have hkd : key.den ρ2 = key.den ρ := (E.den_congr hagree key hk).symm
  have hsl : SameLayers (st2.maps obj).layers (st.maps obj).layers := by rw [hm2]; exact hr.layers obj
  have hf2 : flattens (st2.maps obj).layers key = false := by rw [flattens_same hsl]; exact hf
  have hw : withItemLayer (st2.maps obj) ⟨key, value, present⟩ change =
      { st2.maps obj with layers := ⟨[⟨key, value, present⟩], (lengthOf (st2.maps obj) (st2.maps obj).layers).add change, (0, [])⟩ :: (st2.maps obj).layers } := by
    simp [withItemLayer, hf2]
  have hbl : (st2.maps obj).baseLength = (st.maps obj).baseLength := by rw [hm2]; exact hr.lengths obj
  have hleneq : lengthOf (st2.maps obj) (st2.maps obj).layers = lengthOf (st.maps obj) (st.maps obj).layers := hsl.lengthOf hbl
  have hm := hd2.maps obj
  have hcont : content ρ2 (W obj) (st2.maps obj).layers = content ρ (W obj) (st.maps obj).layers := by
    rw [hsl.content]
    refine (content_congr hagree _ ?_).symm
    exact fun l hl => ((h.maps obj).within.layers l hl).2
  have hun2 : (st2.maps obj).unknown = (st.maps obj).unknown := by rw [hm2]; exact hr.unknown obj
  have hkw : key.within st2.next := E.within_mono hnext _ hk
  have hml : MapOk st2.next ρ2 (W obj) (withItemLayer (st2.maps obj) ⟨key, value, present⟩ change) := by
    rw [hw]
    refine hm.addLayer ⟨hkw, hv, hp⟩ ⟨lengthOf_within hm.within 0, hc⟩ ?_ ?_ ?_
    · rw [hun2, hkd, ← E.den_congr hagree _ (h.maps obj).within.unknown.1]; exact Ne.symm hu
    · rcases hr.touch rfl hu with ⟨b, hb, e⟩ | e
      · refine .inl ⟨b, by rw [hm2]; exact hb, ?_⟩
        have hbw := ((hr.describes.maps obj).within.base b hb).1
        rw [← E.den_congr ha2 _ hbw, e]
        exact E.den_congr ha2 _ (E.within_mono hr.next _ hk)
      · refine .inr ?_
        show (W obj (key.den ρ2)).2 = false
        rw [hkd]; exact e
    · rw [override_single]
      show LenOk ρ2 (Function.update _ (key.den ρ2) (value.den ρ2, present.den ρ2)) _
      rw [hleneq, hkd, hcont]
      refine hlen _ rfl ?_
      have := hm.length 0
      simp only [List.drop_zero] at this
      rw [hleneq, hcont] at this
      exact this
  have hmaps : (st2.setMap obj (withItemLayer (st2.maps obj) ⟨key, value, present⟩ change)).maps obj =
      withItemLayer (st2.maps obj) ⟨key, value, present⟩ change := setMap_same _ _ _
  have hoth : ∀ o, o ≠ obj → (st2.setMap obj (withItemLayer (st2.maps obj) ⟨key, value, present⟩ change)).maps o = st1.maps o := by
    intro o ho; rw [setMap_other _ ho, hm2]
  refine ⟨hagree, hnext, hd2.setMap hml, ⟨_, rfl, ?_⟩, ⟨⟨_, _, by rw [hmaps, hw], hsl⟩, fun o ho => ?_⟩, fun o => ?_, fun o => ?_, fun o => ?_, ?_⟩
  · unfold State.contentAt
    rw [hmaps, hw]
    show override ρ2 [⟨key, value, present⟩] (content ρ2 (W obj) (st2.maps obj).layers) = _
    rw [override_single, hcont]
    show Function.update (content ρ (W obj) (st.maps obj).layers) (key.den ρ2) (value.den ρ2, present.den ρ2) = _
    rw [hkd]
    rfl
  · rw [hoth o ho]; exact hr.layers o
  · by_cases ho : o = obj
    · subst ho; rw [hmaps, hw]; exact hbl
    · rw [hoth o ho]; exact hr.lengths o
  · by_cases ho : o = obj
    · subst ho; rw [hmaps, hw]; exact hun2
    · rw [hoth o ho]; exact hr.unknown o
  · have hb : ∃ extra, (st1.maps o).base = (st.maps o).base ++ extra ∧ ∀ i ∈ extra, o = obj ∧ i.key.den ρ2 = key.den ρ := by
      rcases hr.base o with e | ⟨ho, i, hi, e⟩
      · exact ⟨[], by simp [e]⟩
      · exact ⟨[i], e, fun j hj => ⟨ho, by rw [List.mem_singleton.1 hj, hi, hkd]⟩⟩
    by_cases ho : o = obj
    · subst ho; rw [hmaps, hw, hm2]; exact hb
    · rw [hoth o ho]; exact hb
  · intro l ls e
    rw [hmaps, hw] at e ⊢
    simp only [List.cons.injEq] at e
    rw [← e.2]
    exact hm.base

/-- `set` of a key that is not the unknown one, when it is not flattened. -/
theorem set_updated (fuel : Nat) {st : State} {W : Nat → Contents} {ρ : Env} (h : Describes st W ρ) (obj : Nat) {key value : E}
    (hk : key.within st.next) (hv : value.within st.next) (hu : key.den ρ ≠ (st.maps obj).unknown.key.den ρ)
    (hf : flattens (st.maps obj).layers key = false) (hroom : HasRoom (st.contentAt W ρ obj none)) :
    ∃ st' ρ', set (fuel + 1) st obj key value = some st' ∧ Updated st W ρ obj (key.den ρ) (fun x => x = (value.den ρ, true)) st' ρ' := by
  obtain ⟨r, st1, ρ1, hg, hr⟩ := get_read fuel h obj none (hint := none) (cond := .lit true) hk (by simp) trivial (h.maps obj).base (by simp)
  obtain ⟨p, hp1, hp2, hp3⟩ := constantOr_some hr.describes.sat hr.within.2
  have hvd : value.den ρ1 = value.den ρ := (E.den_congr hr.agree _ hv).symm
  refine ⟨_, ρ1, by unfold set; simp only [hg, hp1]; rfl, ?_⟩
  have := layer_updated h hr hk hu hf (Agree.refl _ _) (Nat.le_refl _) hr.describes rfl (value := value) (present := .lit true)
    (change := .ite p (.const 0) (.const 1)) (E.within_mono hr.next _ hv) trivial ⟨hp2, trivial, trivial⟩ (by
      intro f hfe hl
      refine lenOk_insert hl ?_ rfl ?_
      · rw [hfe]; exact hroom
      · simp only [E.den, hp3, hr.present rfl, hfe]; rfl)
  rw [hvd] at this
  exact this

/-- `remove` of a key that is not the unknown one, when it is not flattened. -/
theorem remove_updated (fuel : Nat) {st : State} {W : Nat → Contents} {ρ : Env} (h : Describes st W ρ) (obj : Nat) {key : E}
    (hk : key.within st.next) (hu : key.den ρ ≠ (st.maps obj).unknown.key.den ρ) (hf : flattens (st.maps obj).layers key = false) :
    ∃ st' ρ', remove (fuel + 1) st obj key = some st' ∧ Updated st W ρ obj (key.den ρ) (fun x => x.2 = false) st' ρ' := by
  obtain ⟨r, st1, ρ1, hg, hr⟩ := get_read fuel h obj none (hint := none) (cond := .lit true) hk (by simp) trivial (h.maps obj).base (by simp)
  refine ⟨_, ρ1, by unfold remove; simp only [hg]; rfl, ?_⟩
  have := layer_updated (st2 := { st1 with next := st1.next + 1 }) h hr hk hu hf (Agree.refl _ _) (Nat.le_succ _)
    (hr.describes.fresh (Nat.le_succ _) (Agree.refl _ _)) rfl (value := .var st1.next) (present := .lit false)
    (change := .ite r.2 (.const (2 ^ 64 - 1)) (.const 0)) (Nat.lt_succ_self _) trivial ⟨B.within_mono (Nat.le_succ _) _ hr.within.2, trivial, trivial⟩ (by
      intro f hfe hl
      refine lenOk_erase hl rfl ?_
      simp only [E.den, hr.present rfl, hfe]; rfl)
  obtain ⟨a, b, c, ⟨x, hx, e⟩, f, g, i, j, q⟩ := this
  exact ⟨a, b, c, ⟨x, by rw [hx]; rfl, e⟩, f, g, i, j, q⟩

end Verif.Tool.GhostMap
