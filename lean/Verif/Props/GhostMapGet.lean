/- One read of a ghost map: the state it leaves still describes the same world. Used by C19 to C26. -/
import Verif.Props.GhostMapBase

set_option autoImplicit false

namespace Verif.Tool.GhostMap

/-- The read returned what the world has at the key, and the state still describes the world. -/
structure Read (st : State) (W : Nat → Contents) (ρ : Env) (obj : Nat) (ver : Option Nat) (key : E) (cond : B)
    (r : E × B) (st' : State) (ρ' : Env) : Prop where
  agree : Agree st.next ρ ρ'
  next : st.next ≤ st'.next
  describes : Describes st' W ρ'
  within : r.1.within st'.next ∧ r.2.within st'.next
  present : cond.den ρ = true → r.2.den ρ' = (st.contentAt W ρ obj ver (key.den ρ)).2
  value : cond.den ρ = true → (st.contentAt W ρ obj ver (key.den ρ)).2 = true → r.1.den ρ' = (st.contentAt W ρ obj ver (key.den ρ)).1
  layers : ∀ o, SameLayers (st'.maps o).layers (st.maps o).layers
  lengths : ∀ o, (st'.maps o).baseLength = (st.maps o).baseLength
  unknown : ∀ o, (st'.maps o).unknown = (st.maps o).unknown
  invs : ∀ o, (st'.maps o).invs = (st.maps o).invs
  base : ∀ o, (st'.maps o).base = (st.maps o).base ∨ (o = obj ∧ ∃ i : Item, i.key = key ∧ (st'.maps o).base = (st.maps o).base ++ [i])
  touch : cond.den ρ = true → key.den ρ ≠ (st.maps obj).unknown.key.den ρ →
    (∃ b ∈ (st'.maps obj).base, b.key.den ρ' = key.den ρ') ∨ (W obj (key.den ρ)).2 = false
  full : cond.den ρ = true → isEmpty (lengthOf (st.maps obj) ((st.maps obj).layers.drop (skip (st.maps obj) ver))) = false →
    r.1.den ρ' = (st.contentAt W ρ obj ver (key.den ρ)).1

/-- The assignment with values for the symbol `n`. -/
def Env.assign (ρ : Env) (n v : Nat) (p : Bool) : Env :=
  ⟨fun i => if i = n then v else ρ.bv i, fun i => if i = n then p else ρ.bl i⟩

theorem agree_assign (ρ : Env) (n v : Nat) (p : Bool) : Agree n ρ (ρ.assign n v p) := by
  intro i hi
  simp [Env.assign, Nat.ne_of_lt hi]

theorem setMap_same (st : State) (obj : Nat) (m : MapS) : (st.setMap obj m).maps obj = m := by simp [State.setMap]
theorem setMap_other (st : State) {obj o : Nat} (h : o ≠ obj) (m : MapS) : (st.setMap obj m).maps o = st.maps o := by simp [State.setMap, h]

theorem Describes.setMap {st : State} {W : Nat → Contents} {ρ : Env} (h : Describes st W ρ) {obj : Nat} {m : MapS}
    (hm : MapOk st.next ρ (W obj) m) : Describes (st.setMap obj m) W ρ := by
  refine ⟨h.sat, h.within, fun o => ?_⟩
  by_cases ho : o = obj
  · subst ho; rw [setMap_same]; exact hm
  · rw [setMap_other _ ho]; exact h.maps o

theorem Describes.add {st : State} {W : Nat → Contents} {ρ : Env} (h : Describes st W ρ) {cs : List B}
    (hc : ∀ c ∈ cs, c.within st.next ∧ c.den ρ = true) : Describes (st.add cs) W ρ := by
  refine ⟨fun c hc' => ?_, fun c hc' => ?_, h.maps⟩ <;> rcases List.mem_append.1 hc' with h' | h'
  · exact (hc c h').2
  · exact h.sat c h'
  · exact (hc c h').1
  · exact h.within c h'

theorem Describes.fresh {st : State} {W : Nat → Contents} {ρ : Env} (h : Describes st W ρ) {n : Nat} (hn : st.next ≤ n) {ρ' : Env} (ha : Agree st.next ρ ρ') :
    Describes { st with next := n } W ρ' := by
  refine ⟨fun c hc => ?_, fun c hc => B.within_mono hn _ (h.within c hc), fun o => (h.maps o).congr hn ha⟩
  rw [← B.den_congr ha c (h.within c hc)]; exact h.sat c hc

theorem baseOk_drop {ρ : Env} {w : Contents} {base : List Item} {ls : List Layer} {d : Nat} (h : BaseOk ρ w base (ls.drop d)) : BaseOk ρ w base ls :=
  fun i hi hu => h i hi fun l hl => hu l (List.mem_of_mem_drop hl)

theorem distinct_drop {n : Nat} {ρ : Env} {w : Contents} {m : MapS} (h : MapOk n ρ w m) (d : Nat) :
    ∀ l ∈ m.layers.drop d, ∀ i ∈ l.items, ∀ j ∈ l.items, i.key.den ρ = j.key.den ρ → i = j :=
  fun l hl => h.distinct l (List.mem_of_mem_drop hl)

/-- What adding an item at a version does. `items` are the known items of that version before. -/
theorem getNew_read (g : GetFn) {st : State} {W : Nat → Contents} {ρ : Env} (h : Describes st W ρ) (obj d : Nat) {key : E} {hint : Option E} {cond : B}
    (hk : key.within st.next) (hh : ∀ e ∈ hint, e.within st.next) (hc : cond.within st.next)
    (hb : BaseOk ρ (W obj) (st.maps obj).base ((st.maps obj).layers.drop d))
    (hhint : cond.den ρ = true → ∀ e ∈ hint, (content ρ (W obj) ((st.maps obj).layers.drop d) (key.den ρ)).1 = e.den ρ) :
    ∃ r st' ρ', getNew g st obj d (items (st.maps obj).base ((st.maps obj).layers.drop d)) key hint cond = some (r, st') ∧
      Agree st.next ρ ρ' ∧ st.next ≤ st'.next ∧ Describes st' W ρ' ∧ r.1.within st'.next ∧ r.2.within st'.next ∧
      (r.1.den ρ', r.2.den ρ') = content ρ (W obj) ((st.maps obj).layers.drop d) (key.den ρ) ∧
      (∀ o, SameLayers (st'.maps o).layers (st.maps o).layers) ∧
      (∀ o, (st'.maps o).baseLength = (st.maps o).baseLength) ∧ (∀ o, (st'.maps o).unknown = (st.maps o).unknown) ∧
      (∀ o, (st'.maps o).invs = (st.maps o).invs) ∧ (∀ o, o ≠ obj → (st'.maps o).base = (st.maps o).base) ∧
      (∃ i : Item, i.key = key ∧ (st'.maps obj).base = (st.maps obj).base ++ [i]) := by
  -- names for the parts
  have hm := h.maps obj
  set m := st.maps obj with hmdef
  set c := content ρ (W obj) (m.layers.drop d) with hcdef
  set ρ' := ρ.assign st.next (c (key.den ρ)).1 (c (key.den ρ)).2 with hρ'
  have ha : Agree st.next ρ ρ' := agree_assign _ _ _ _
  let item : Item := ⟨key, .var st.next, .var st.next⟩
  have hitem : item.within (st.next + 1) := ⟨E.within_mono (Nat.le_succ _) _ hk, Nat.lt_succ_self _, Nat.lt_succ_self _⟩
  have hkey : key.den ρ' = key.den ρ := (E.den_congr ha key hk).symm
  have hval : (item.value.den ρ', item.present.den ρ') = c (key.den ρ) := by
    simp [item, E.den, B.den, hρ', Env.assign]
  have hwl : ∀ l ∈ m.layers, ∀ i ∈ l.items, i.within st.next := fun l hl i hi => (hm.within.layers l hl).2 i hi
  have hwd : ∀ l ∈ m.layers.drop d, ∀ i ∈ l.items, i.within st.next := fun l hl => hwl l (List.mem_of_mem_drop hl)
  have hcc : content ρ' (W obj) (m.layers.drop d) = c := (content_congr ha _ hwd).symm
  -- the item is right at this version, and at the newest one
  have hitemOkd : item.ok ρ' (content ρ' (W obj) (m.layers.drop d)) := by
    show content ρ' (W obj) (m.layers.drop d) (key.den ρ') = _
    rw [hval, hcc, hkey]
  have hitemOk : Untouched ρ' m.layers (item.key.den ρ') → item.ok ρ' (W obj) := by
    intro hu
    have hud : Untouched ρ' (m.layers.drop d) (item.key.den ρ') := fun l hl => hu l (List.mem_of_mem_drop hl)
    have := hitemOkd
    unfold Item.ok at this ⊢
    rw [content_untouched hud] at this
    exact this
  -- the state with the item
  let st0 : State := { st with next := st.next + 1 }
  have hd0 : Describes st0 W ρ' := h.fresh (Nat.le_succ _) ha
  have hhc : ∀ b ∈ hintConstraint cond item.value hint, b.within st0.next ∧ b.den ρ' = true := by
    intro b hb'
    cases hint with
    | none => simp [hintConstraint] at hb'
    | some e =>
      simp only [hintConstraint, List.mem_singleton] at hb'
      subst hb'
      have he := hh e rfl
      refine ⟨⟨B.within_mono (Nat.le_succ _) _ hc, ⟨Nat.lt_succ_self _, E.within_mono (Nat.le_succ _) _ he⟩⟩, ?_⟩
      rw [den_implies]
      intro hcond
      rw [← B.den_congr ha _ hc] at hcond
      rw [den_eq, beq_iff_eq, ← E.den_congr ha _ he, ← hhint hcond e rfl]
      exact congrArg Prod.fst hval
  have hd1 : Describes (st0.add (hintConstraint cond item.value hint)) W ρ' := hd0.add hhc
  let m1 : MapS := { m with base := m.base ++ [item] }
  have hm1 : MapOk (st.next + 1) ρ' (W obj) m1 := by
    have := (hd1.maps obj)
    exact MapOk.addItem (m := m) this hitem hitemOk
  let st1 : State := (st0.add (hintConstraint cond item.value hint)).setMap obj m1
  have hd1' : Describes st1 W ρ' := hd1.setMap hm1
  -- the invariants
  obtain ⟨bs, hbs, hbsw, hbsd⟩ := applyInvs_pure g item cond st1 hitem (Nat.le_succ st.next) m.invs hm.within.invs
  -- the length
  have hst1 : st1.maps obj = m1 := setMap_same _ _ _
  have hb1 : BaseOk ρ' (W obj) m1.base (m1.layers.drop d) := by
    intro i hi hu
    rcases List.mem_append.1 hi with hi | hi
    · exact hb.congr ha hwd hm.within.base i hi hu
    · rw [List.mem_singleton.1 hi] at hu ⊢
      have := hitemOkd
      unfold Item.ok at this ⊢
      rw [content_untouched hu] at this
      exact this
  have hce := known_eq m1.base (m1.layers.drop d) (hm1.caches.drop _ _ _)
  have hover : ∃ b st2, overfullCheck st1 obj d = (b, st2) ∧ b.within (st.next + 1) ∧ b.den ρ' = true ∧
      st2 = st1.setMap obj (m1.setLower d (known m1.base (m1.layers.drop d)).2) := by
    refine ⟨_, _, rfl, ?_, ?_, by rw [hst1]⟩
    · rw [hst1, hce.1]
      exact notOverfull_below (lengthOf_within hm1.within d)
        (items_below hm1.within.base fun l hl => (hm1.within.layers l (List.mem_of_mem_drop hl)).2)
    · rw [hst1, hce.1]
      exact notOverfull_holds (hm1.length d) (items_ok (distinct_drop hm1 d) hb1)
  obtain ⟨b, st2, ho, hbw, hbd, rfl⟩ := hover
  have hd2 : Describes (st1.setMap obj (m1.setLower d (known m1.base (m1.layers.drop d)).2)) W ρ' :=
    hd1'.setMap (hm1.setLower hce.2.1 hce.2.2)
  have hsl : SameLayers (m1.setLower d (known m1.base (m1.layers.drop d)).2).layers m.layers := SameLayers.setLower (ls := m.layers) hce.2.2
  -- the known items are right
  have hknown : ∀ i ∈ items m.base (m.layers.drop d), i.ok ρ' c ∧ i.within (st.next + 1) := by
    intro i hi
    constructor
    · rw [← hcc]
      have hm' := (hd1.maps obj)
      exact items_ok (distinct_drop (m := m) hm' d) (hb.congr ha hwd hm.within.base) i hi
    · have := items_below hm.within.base hwd i hi
      exact ⟨E.within_mono (Nat.le_succ _) _ this.1, E.within_mono (Nat.le_succ _) _ this.2.1, B.within_mono (Nat.le_succ _) _ this.2.2⟩
  have hunk : m.unknown.ok ρ' c ∧ m.unknown.within (st.next + 1) := by
    constructor
    · have hm' : MapOk (st.next + 1) ρ' (W obj) m := hd1.maps obj
      have hu : Untouched ρ' (m.layers.drop d) (m.unknown.key.den ρ') := fun l hl => hm'.unknownKey l (List.mem_of_mem_drop hl)
      unfold Item.ok
      rw [← hcc, content_untouched hu]
      exact hm'.unknown
    · exact (hm.within.mono (Nat.le_succ _)).unknown
  let m2 : MapS := m1.setLower d (known m1.base (m1.layers.drop d)).2
  let cs : List B := sameAs item (items m.base (m.layers.drop d) ++ [m.unknown]) ++
    bs.map (implies (isUnknown key (items m.base (m.layers.drop d)))) ++ [b]
  have hrun : getNew g st obj d (items m.base (m.layers.drop d)) key hint cond = some ((item.value, item.present), (st1.setMap obj m2).add cs) := by
    unfold getNew
    show (match applyInvs g item cond st1 m.invs with
      | none => none
      | some (bs, st2) =>
        let o := overfullCheck st2 obj d
        some ((item.value, item.present), o.2.add (sameAs item (items m.base (m.layers.drop d) ++ [m.unknown]) ++
          bs.map (implies (isUnknown key (items m.base (m.layers.drop d)))) ++ [o.1]))) = _
    rw [hbs]
    simp only [ho]
    rfl
  have hmaps : ∀ o, ((st1.setMap obj m2).add cs).maps o = if o = obj then m2 else st.maps o := by
    intro o
    by_cases h' : o = obj
    · subst h'; rw [if_pos rfl]; exact setMap_same _ _ _
    · rw [if_neg h']
      exact (setMap_other st1 h' m2).trans (setMap_other _ h' m1)
  refine ⟨(item.value, item.present), (st1.setMap obj m2).add cs, ρ', hrun, ha, Nat.le_succ _, ?_, Nat.lt_succ_self _, Nat.lt_succ_self _, hval,
    fun o => ?_, fun o => ?_, fun o => ?_, fun o => ?_, fun o hne => ?_, ⟨item, rfl, ?_⟩⟩
  · apply hd2.add
    intro x hx
    show x.within (st.next + 1) ∧ _
    rcases List.mem_append.1 hx with hx | hx
    · rcases List.mem_append.1 hx with hx | hx
      · -- the same key has the same value
        simp only [sameAs, List.mem_map] at hx
        obtain ⟨i, hi, rfl⟩ := hx
        have hi' : i.ok ρ' c ∧ i.within (st.next + 1) := by
          rcases List.mem_append.1 hi with hi | hi
          · exact hknown i hi
          · rw [List.mem_singleton.1 hi]; exact hunk
        refine ⟨⟨⟨hitem.1, hi'.2.1⟩, ⟨⟨hitem.2.1, hi'.2.2.1⟩, ⟨hitem.2.2, hi'.2.2.2⟩⟩⟩, ?_⟩
        rw [den_implies]
        intro he
        have he' : key.den ρ' = i.key.den ρ' := by simpa [den_eq] using he
        have h1 := hi'.1
        unfold Item.ok at h1
        rw [← he', hkey, ← hval] at h1
        simp only [Prod.mk.injEq] at h1
        simp [B.den, den_eq, h1.1, h1.2]
      · -- the invariants hold of an unknown key
        obtain ⟨b', hb', rfl⟩ := List.mem_map.1 hx
        refine ⟨⟨below_andAll _ ?_, hbsw b' hb'⟩, ?_⟩
        · intro y hy
          obtain ⟨i, hi, rfl⟩ := List.mem_map.1 hy
          exact ⟨hitem.1, (hknown i hi).2.1⟩
        · rw [den_implies]
          intro hun
          have hne : ∀ i ∈ items m.base (m.layers.drop d), i.key.den ρ' ≠ key.den ρ' := by
            intro i hi e
            rw [isUnknown, den_andAll, List.all_eq_true] at hun
            have := hun _ (List.mem_map.2 ⟨i, hi, rfl⟩)
            simp [B.den, den_eq, e] at this
          refine hbsd ρ' (fun inv hinv => ?_) b' hb'
          have hm' : MapOk (st.next + 1) ρ' (W obj) m := hd1.maps obj
          have hu : Untouched ρ' (m.layers.drop d) (key.den ρ') := by
            intro l hl i hi e
            obtain ⟨j, hj, ej⟩ := items_has_key (base := m.base) (.inr ⟨l, hl, i, hi, rfl⟩)
            exact hne j hj (by rw [ej ρ']; exact e)
          have hw : W obj (key.den ρ') = (item.value.den ρ', item.present.den ρ') := by
            rw [hval, ← hkey, ← hcc, content_untouched hu]
          have := hm'.invs inv hinv (key.den ρ') fun b hb'' e => by
            obtain ⟨j, hj, ej⟩ := items_has_key (ls := m.layers.drop d) (.inl ⟨b, hb'', rfl⟩)
            exact hne j hj (by rw [ej ρ']; exact e)
          rw [hw] at this
          exact this
    · rw [List.mem_singleton.1 hx]
      exact ⟨hbw, hbd⟩
  · rw [hmaps]
    split
    · rename_i e; subst e; exact hsl
    · exact rfl
  · rw [hmaps]
    split
    · rename_i e; subst e; rfl
    · rfl
  · rw [hmaps]
    split
    · rename_i e; subst e; rfl
    · rfl
  · rw [hmaps]
    split
    · rename_i e; subst e; rfl
    · rfl
  · rw [hmaps, if_neg hne]
  · rw [hmaps, if_pos rfl]; rfl

theorem isEmpty_eq {e : E} (h : isEmpty e = true) (ρ : Env) : e.den ρ = 0 := by
  simp only [isEmpty, Bool.and_eq_true, Bool.not_eq_true', beq_iff_eq] at h
  rw [E.den_closed ρ env0 e h.1, h.2]

theorem exactMatch_sound {cs : List B} {key : E} {l : List Item} {cond : B} {i : Item} (h : exactMatch cs key l cond = some i) :
    i ∈ l ∧ ∀ ρ, sat cs ρ → cond.den ρ = true → key.den ρ = i.key.den ρ := by
  unfold exactMatch at h
  split at h
  · rename_i c hc
    cases h
    have h2 := List.find?_some hc
    exact ⟨List.mem_of_find?_eq_some hc, fun ρ _ _ => E.same_sound h2 ρ⟩
  · split at h
    · have h2 := List.find?_some h
      refine ⟨List.mem_of_find?_eq_some h, fun ρ hs hc => ?_⟩
      have := definitely_sound h2 hs
      simpa [B.den, hc, den_eq] using this
    · simp at h

/-- A read at a version whose recorded items are right returns what the world has there. -/
theorem get_read (fuel : Nat) {st : State} {W : Nat → Contents} {ρ : Env} (h : Describes st W ρ) (obj : Nat) (ver : Option Nat) {key : E} {hint : Option E} {cond : B}
    (hk : key.within st.next) (hh : ∀ e ∈ hint, e.within st.next) (hc : cond.within st.next)
    (hb : BaseOk ρ (W obj) (st.maps obj).base ((st.maps obj).layers.drop (skip (st.maps obj) ver)))
    (hhint : cond.den ρ = true → ∀ e ∈ hint, (st.contentAt W ρ obj ver (key.den ρ)).1 = e.den ρ) :
    ∃ r st' ρ', get (fuel + 1) st obj ver key hint cond = some (r, st') ∧ Read st W ρ obj ver key cond r st' ρ' := by
  have hm := h.maps obj
  have htouch : ∀ k : Nat, (Untouched ρ (st.maps obj).layers k → (∃ b ∈ (st.maps obj).base, b.key.den ρ = k) ∨ (W obj k).2 = false) →
      (∃ b ∈ (st.maps obj).base, b.key.den ρ = k) ∨ (W obj k).2 = false := by
    intro k hu
    by_cases ht : Untouched ρ (st.maps obj).layers k
    · exact hu ht
    · simp only [Untouched, not_forall, not_not] at ht
      obtain ⟨l, hl, i, hi, e⟩ := ht
      rcases hm.touched l hl i hi with ⟨b, hb', e'⟩ | e'
      · exact .inl ⟨b, hb', e'.trans e⟩
      · rw [e] at e'; exact .inr e'
  unfold State.contentAt at hhint
  set d := skip (st.maps obj) ver with hd
  unfold get
  simp only [← hd]
  split
  · -- the map is known to be empty
    rename_i hemp
    have hlen := isEmpty_eq hemp ρ
    obtain ⟨S, hS, hcard, -⟩ := hm.length d
    rw [hlen] at hcard
    have hSe : S = ∅ := Finset.card_eq_zero.1 hcard.symm
    have habs : ∀ k, (content ρ (W obj) ((st.maps obj).layers.drop d) k).2 = false := by
      intro k
      cases hp : (content ρ (W obj) ((st.maps obj).layers.drop d) k).2 with
      | false => rfl
      | true => have := (hS k).2 hp; rw [hSe] at this; simp at this
    have ha : Agree st.next ρ ρ := Agree.refl _ _
    refine ⟨_, _, ρ, rfl, ⟨ha, Nat.le_succ _, h.fresh (Nat.le_succ _) ha, ⟨Nat.lt_succ_self _, trivial⟩, fun _ => ?_, fun _ hp => ?_,
      fun _ => rfl, fun _ => rfl, fun _ => rfl, fun _ => rfl, fun _ => .inl rfl, fun _ _ => ?_, fun _ hne => ?_⟩⟩
    · exact (habs _).symm
    · rw [State.contentAt, ← hd, habs] at hp; simp at hp
    · apply htouch
      intro hu
      right
      have hu' : Untouched ρ ((st.maps obj).layers.drop d) (key.den ρ) := fun l hl => hu l (List.mem_of_mem_drop hl)
      rw [← content_untouched (w := W obj) hu']; exact habs _
    · rw [← hd, hemp] at hne; exact absurd hne (by simp)
  · -- known items
    have hce := known_eq (st.maps obj).base ((st.maps obj).layers.drop d) (hm.caches.drop _ _ _)
    set k := known (st.maps obj).base ((st.maps obj).layers.drop d) with hkd
    set st1 := st.setMap obj ((st.maps obj).setLower d k.2) with hst1
    have hd1 : Describes st1 W ρ := h.setMap (hm.setLower hce.2.1 hce.2.2)
    have hsl : SameLayers ((st.maps obj).setLower d k.2).layers (st.maps obj).layers := SameLayers.setLower (ls := (st.maps obj).layers) hce.2.2
    have hmap1 : st1.maps obj = (st.maps obj).setLower d k.2 := setMap_same _ _ _
    have hlay : ∀ o, SameLayers (st1.maps o).layers (st.maps o).layers := by
      intro o
      by_cases ho : o = obj
      · subst ho; rw [hmap1]; exact hsl
      · rw [hst1, setMap_other _ ho]; exact rfl
    have hothers : ∀ o, (st1.maps o).baseLength = (st.maps o).baseLength ∧ (st1.maps o).unknown = (st.maps o).unknown ∧
        (st1.maps o).invs = (st.maps o).invs ∧ (st1.maps o).base = (st.maps o).base := by
      intro o
      by_cases ho : o = obj
      · subst ho; rw [hmap1]; exact ⟨rfl, rfl, rfl, rfl⟩
      · rw [hst1, setMap_other _ ho]; exact ⟨rfl, rfl, rfl, rfl⟩
    have hitemsok := items_ok (distinct_drop hm d) hb
    cases hmatch : exactMatch st1.constraints key (k.1 ++ [(st.maps obj).unknown]) cond with
    | some i =>
      obtain ⟨hi, hie⟩ := exactMatch_sound hmatch
      rw [hce.1] at hi
      have hw : i.within st.next := by
        rcases List.mem_append.1 hi with hi | hi
        · exact items_below hm.within.base (fun l hl => (hm.within.layers l (List.mem_of_mem_drop hl)).2) i hi
        · rw [List.mem_singleton.1 hi]; exact hm.within.unknown
      have hok : i.ok ρ (content ρ (W obj) ((st.maps obj).layers.drop d)) := by
        rcases List.mem_append.1 hi with hi | hi
        · exact hitemsok i hi
        · rw [List.mem_singleton.1 hi]
          have hu : Untouched ρ ((st.maps obj).layers.drop d) ((st.maps obj).unknown.key.den ρ) :=
            fun l hl => hm.unknownKey l (List.mem_of_mem_drop hl)
          unfold Item.ok
          rw [content_untouched hu]; exact hm.unknown
      refine ⟨_, _, ρ, rfl, ⟨Agree.refl _ _, Nat.le_refl _, hd1, ⟨hw.2.1, hw.2.2⟩, fun hcd => ?_, fun hcd _ => ?_,
        hlay, fun o => (hothers o).1, fun o => (hothers o).2.1, fun o => (hothers o).2.2.1, fun o => .inl (hothers o).2.2.2, fun hcd hne => ?_, fun hcd _ => ?_⟩⟩
      · unfold State.contentAt; rw [← hd, hie ρ h.sat hcd, hok]
      · unfold State.contentAt; rw [← hd, hie ρ h.sat hcd, hok]
      · rw [(hothers obj).2.2.2]
        apply htouch
        intro hu
        left
        have e := hie ρ h.sat hcd
        rcases List.mem_append.1 hi with hi | hi
        · rcases items_key hi with ⟨b, hb', eb⟩ | ⟨l, hl, j, hj, ej⟩
          · exact ⟨b, hb', by rw [eb, e]⟩
          · exact absurd (by rw [ej, e]) (hu l (List.mem_of_mem_drop hl) j hj)
        · rw [List.mem_singleton.1 hi] at e; exact absurd e hne
      · unfold State.contentAt; rw [← hd, hie ρ h.sat hcd, hok]
    | none =>
      have hlayd : SameLayers ((st1.maps obj).layers.drop d) ((st.maps obj).layers.drop d) := (hlay obj).drop d
      have hb1 : BaseOk ρ (W obj) (st1.maps obj).base ((st1.maps obj).layers.drop d) := by
        rw [(hothers obj).2.2.2]
        exact fun i hi hu => hb i hi (hlayd.symm.untouched hu)
      obtain ⟨r, st', ρ', h1, ha, hn, hd', hw1, hw2, hr, hl', hbl, hun, hinv, hbo, ⟨i, hik, hbi⟩⟩ :=
        getNew_read (get fuel) hd1 obj d hk hh hc hb1 (by rw [hlayd.content]; exact hhint)
      have hit : items (st1.maps obj).base ((st1.maps obj).layers.drop d) = k.1 := by
        rw [hce.1, (hothers obj).2.2.2, hlayd.items]
      rw [hit] at h1
      rw [hlayd.content] at hr
      have hbase : ∀ o, (st'.maps o).base = (st.maps o).base ∨ (o = obj ∧ ∃ i : Item, i.key = key ∧ (st'.maps o).base = (st.maps o).base ++ [i]) := by
        intro o
        by_cases ho : o = obj
        · subst ho
          exact .inr ⟨rfl, i, hik, by rw [hbi, (hothers o).2.2.2]⟩
        · exact .inl ((hbo o ho).trans (hothers o).2.2.2)
      refine ⟨r, st', ρ', h1, ⟨ha, hn, hd', ⟨hw1, hw2⟩, fun _ => ?_, fun _ _ => ?_, fun o => (hl' o).trans (hlay o), fun o => (hbl o).trans (hothers o).1,
        fun o => (hun o).trans (hothers o).2.1, fun o => (hinv o).trans (hothers o).2.2.1, hbase, fun _ _ => .inl ⟨i, by rw [hbi]; simp, by rw [hik]⟩, fun _ _ => ?_⟩⟩
      · exact congrArg Prod.snd hr
      · exact congrArg Prod.fst hr
      · exact congrArg Prod.fst hr

end Verif.Tool.GhostMap
