/- Merging ghost maps (C26). -/
import Verif.Props.GhostMapEval
import Verif.Props.GhostMapSet
import Verif.Tool.GhostMapMerge

set_option autoImplicit false

namespace Verif.Tool.GhostMap

theorem B.same_sound {a b : B} (h : a.same b = true) (ρ : Env) : a.den ρ = b.den ρ := by
  simp only [B.same, Bool.or_eq_true, decide_eq_true_eq, Bool.and_eq_true, Bool.not_eq_true', beq_iff_eq] at h
  rcases h with rfl | ⟨⟨h1, h2⟩, h3⟩
  · rfl
  · rw [B.den_closed ρ env0 a h1, B.den_closed ρ env0 b h2, h3]

theorem Item.same_ok {a b : Item} (h : a.same b = true) {ρ : Env} {w : Contents} (ha : a.ok ρ w) : b.ok ρ w := by
  simp only [Item.same, Bool.and_eq_true] at h
  unfold Item.ok at ha ⊢
  rw [← E.same_sound h.1.1, ← E.same_sound h.1.2, ← B.same_sound h.2]
  exact ha

theorem Item.same_refl (a : Item) : a.same a = true := by simp [Item.same, E.same, B.same]

theorem sameItems_ok {ρ : Env} {w : Contents} : ∀ {a b : List Item}, sameItems a b = true → (∀ i ∈ a, i.ok ρ w) → ∀ i ∈ b, i.ok ρ w
  | [], [], _, _ => by simp
  | a :: as, b :: bs, h, ha => by
    simp only [sameItems, Bool.and_eq_true] at h
    simp only [List.forall_mem_cons] at ha ⊢
    exact ⟨Item.same_ok h.1 ha.1, sameItems_ok h.2 ha.2⟩
  | [], _ :: _, h, _ => by simp [sameItems] at h
  | _ :: _, [], h, _ => by simp [sameItems] at h

theorem mem_diff {left right : List Item} {i : Item} (hi : i ∈ right) :
    (∃ j ∈ (diff left right).2.1, j.same i = true) ∨ i ∈ (diff left right).2.2 := by
  by_cases h : left.any fun j => j.same i
  · obtain ⟨j, hj, hs⟩ := List.any_eq_true.1 h
    exact .inl ⟨j, List.mem_filter.2 ⟨hj, List.any_eq_true.2 ⟨i, hi, hs⟩⟩, hs⟩
  · exact .inr (List.mem_filter.2 ⟨hi, by simpa using h⟩)

theorem diff_left {left right : List Item} {i : Item} (hi : i ∈ (diff left right).1) : i ∈ left := (List.mem_filter.1 hi).1
theorem diff_both {left right : List Item} {i : Item} (hi : i ∈ (diff left right).2.1) : i ∈ left := (List.mem_filter.1 hi).1
theorem diff_right {left right : List Item} {i : Item} (hi : i ∈ (diff left right).2.2) : i ∈ right := (List.mem_filter.1 hi).1

/-- The state still describes the world, and has only more items. -/
structure Kept (st : State) (W : Nat → Contents) (ρ : Env) (st' : State) (ρ' : Env) : Prop where
  agree : Agree st.next ρ ρ'
  next : st.next ≤ st'.next
  describes : Describes st' W ρ'
  layers : ∀ o, SameLayers (st'.maps o).layers (st.maps o).layers
  lengths : ∀ o, (st'.maps o).baseLength = (st.maps o).baseLength
  unknown : ∀ o, (st'.maps o).unknown = (st.maps o).unknown
  invs : ∀ o, (st'.maps o).invs = (st.maps o).invs

theorem Kept.trans {st st1 st2 : State} {W : Nat → Contents} {ρ ρ1 ρ2 : Env} (h : Kept st W ρ st1 ρ1) (h' : Kept st1 W ρ1 st2 ρ2) : Kept st W ρ st2 ρ2 :=
  ⟨h.agree.trans h'.agree h.next, Nat.le_trans h.next h'.next, h'.describes, fun o => (h'.layers o).trans (h.layers o), fun o => (h'.lengths o).trans (h.lengths o),
    fun o => (h'.unknown o).trans (h.unknown o), fun o => (h'.invs o).trans (h.invs o)⟩

theorem Kept.refl {st : State} {W : Nat → Contents} {ρ : Env} (h : Describes st W ρ) : Kept st W ρ st ρ :=
  ⟨Agree.refl _ _, Nat.le_refl _, h, fun _ => rfl, fun _ => rfl, fun _ => rfl, fun _ => rfl⟩

theorem Kept.add {st : State} {W : Nat → Contents} {ρ : Env} (h : Describes st W ρ) {cs : List B} (hc : ∀ c ∈ cs, c.within st.next ∧ c.den ρ = true) :
    Kept st W ρ (st.add cs) ρ :=
  ⟨Agree.refl _ _, Nat.le_refl _, h.add hc, fun _ => rfl, fun _ => rfl, fun _ => rfl, fun _ => rfl⟩

theorem sameLayers_nil {a : List Layer} {b : List Layer} (h : SameLayers a b) (hb : b = []) : a = [] := by
  subst hb; simpa [SameLayers] using h

theorem mergeLeft_kept (fuel : Nat) {W : Nat → Contents} {ρ : Env} {invs : List IB} {mc : B} :
    ∀ (is : List Item) {st : State}, Describes st W ρ → (∀ inv ∈ invs, inv.pure st.next) → mc.within st.next → (∀ i ∈ is, i.within st.next) →
      (mc.den ρ = true → ∀ i ∈ is, ∀ inv ∈ invs, inv.sem noMaps ρ (i.key.den ρ) (i.value.den ρ) (i.present.den ρ) = true) →
      ∃ st', mergeLeft fuel invs mc st is = some st' ∧ Kept st W ρ st' ρ ∧ st'.maps = st.maps ∧ st'.next = st.next
  | [], st, h, _, _, _, _ => ⟨st, rfl, Kept.refl h, rfl, rfl⟩
  | i :: is, st, h, hp, hmc, hw, hi => by
    obtain ⟨bs, hbs, hbw, hbd⟩ := applyInvs_pure (get fuel) i (.lit true) st (hw i (by simp)) (Nat.le_refl _) invs hp
    have hk : Kept st W ρ (st.add (bs.map (implies mc))) ρ := by
      refine Kept.add h fun c hc => ?_
      obtain ⟨b, hb, rfl⟩ := List.mem_map.1 hc
      refine ⟨⟨hmc, hbw b hb⟩, ?_⟩
      rw [den_implies]
      exact fun hm => hbd ρ (hi hm i (by simp)) b hb
    obtain ⟨st', h1, h2, h3, h4⟩ := mergeLeft_kept fuel (mc := mc) (invs := invs) is (st := st.add (bs.map (implies mc))) hk.describes hp hmc (fun j hj => hw j (by simp [hj]))
      fun hm j hj => hi hm j (by simp [hj])
    refine ⟨st', ?_, hk.trans h2, h3, h4⟩
    unfold mergeLeft
    simp only [hbs, h1]

theorem mergeRight_kept (fuel obj : Nat) {W : Nat → Contents} {mc : B} :
    ∀ (is : List Item) {st : State} {ρ : Env}, Describes st W ρ → (st.maps obj).layers = [] → mc.within st.next → (∀ i ∈ is, i.within st.next) →
      (isEmpty (st.maps obj).baseLength = true → is = []) → (mc.den ρ = true → ∀ i ∈ is, i.ok ρ (W obj)) →
      ∃ st' ρ', mergeRight (fuel + 1) obj mc st is = some st' ∧ Kept st W ρ st' ρ'
  | [], st, ρ, h, _, _, _, _, _ => ⟨st, ρ, rfl, Kept.refl h⟩
  | i :: is, st, ρ, h, hl, hmc, hw, he, hi => by
    have hemp : isEmpty (st.maps obj).baseLength = false := by
      cases he' : isEmpty (st.maps obj).baseLength with
      | false => rfl
      | true => exact absurd (he he') (by simp)
    have hwi := hw i (by simp)
    obtain ⟨r, st1, ρ1, hg, hr⟩ := get_read fuel h obj (some 0) (key := i.key) (hint := none) (cond := .lit true) hwi.1 (by simp) trivial
      (by have := (h.maps obj).base; rw [hl] at this ⊢; simpa using this) (by simp)
    have hcont : st.contentAt W ρ obj (some 0) = W obj := by simp [State.contentAt, hl, content]
    have hk1 : Kept st W ρ st1 ρ1 := ⟨hr.agree, hr.next, hr.describes, hr.layers, hr.lengths, hr.unknown, hr.invs⟩
    have hmc1 : mc.within st1.next := B.within_mono hr.next _ hmc
    have hv : B.within st1.next (implies mc (.and (r.1.eq i.value) (.iff r.2 i.present))) :=
      ⟨hmc1, ⟨hr.within.1, E.within_mono hr.next _ hwi.2.1⟩, ⟨hr.within.2, B.within_mono hr.next _ hwi.2.2⟩⟩
    have hk2 : Kept st1 W ρ1 (st1.add [implies mc (.and (r.1.eq i.value) (.iff r.2 i.present))]) ρ1 := by
      refine Kept.add hr.describes fun c hc => ?_
      rw [List.mem_singleton.1 hc]
      refine ⟨hv, ?_⟩
      rw [den_implies, ← B.den_congr hr.agree _ hmc]
      intro hm
      have hok := hi hm i (by simp)
      have hp := hr.present rfl
      have hf := hr.full rfl (by simpa [hl, lengthOf] using hemp)
      rw [hcont] at hp hf
      unfold Item.ok at hok
      rw [hok] at hp hf
      have e1 := E.den_congr hr.agree _ hwi.2.1
      have e2 := B.den_congr hr.agree _ hwi.2.2
      simp [B.den, den_eq, hp, hf, e1, e2]
    obtain ⟨st', ρ', h1, h2⟩ := mergeRight_kept fuel obj (mc := mc) is hk2.describes (sameLayers_nil (hr.layers obj) hl) hmc1
      (fun j hj => ⟨E.within_mono hr.next _ (hw j (by simp [hj])).1, E.within_mono hr.next _ (hw j (by simp [hj])).2.1, B.within_mono hr.next _ (hw j (by simp [hj])).2.2⟩)
      (fun he' => by
        have : (st1.maps obj).baseLength = (st.maps obj).baseLength := hr.lengths obj
        change isEmpty (st1.maps obj).baseLength = true at he'
        rw [this, hemp] at he'; exact absurd he' (by simp))
      (fun hm j hj => by
        rw [← B.den_congr hr.agree _ hmc] at hm
        exact (Item.ok_congr hr.agree (hw j (by simp [hj]))).1 (hi hm j (by simp [hj])))
    refine ⟨st', ρ', ?_, (hk1.trans hk2).trans h2⟩
    unfold mergeRight
    simp only [hg, h1]

/-- What holds of another side whose merge condition holds: its items are right, and so are the invariants for every key. -/
def SideOk (ρ : Env) (w : Contents) (m : MapS) (s : List Item × B) : Prop :=
  s.2.den ρ = true → (∀ i ∈ s.1, i.ok ρ w) ∧ ∀ inv ∈ m.invs, ∀ k, inv.sem noMaps ρ k (w k).1 (w k).2 = true

def SideBelow (n : Nat) (m : MapS) (s : List Item × B) : Prop :=
  s.2.within n ∧ (∀ i ∈ s.1, i.within n) ∧ (isEmpty m.baseLength = true → s.1 = [])

theorem mergeSide_kept (fuel obj : Nat) {W : Nat → Contents} {st : State} {ρ : Env} (h : Describes st W ρ) (hl : (st.maps obj).layers = [])
    {s : List Item × B} (hb : SideBelow st.next (st.maps obj) s) (ho : SideOk ρ (W obj) (st.maps obj) s) :
    ∃ st' ρ', mergeSide (fuel + 1) obj st s = some st' ∧ Kept st W ρ st' ρ' := by
  have hm := h.maps obj
  have hbok : ∀ i ∈ (st.maps obj).base, i.ok ρ (W obj) := fun i hi => hm.base i hi (by rw [hl]; simp [Untouched])
  obtain ⟨st1, h1, h2, h3, h4⟩ := mergeLeft_kept (fuel + 1) (mc := s.2) (diff (st.maps obj).base s.1).1 h hm.within.invs hb.1
    (fun i hi => hm.within.base i (diff_left hi)) fun hmc i hi inv hinv => by
      have := (ho hmc).2 inv hinv (i.key.den ρ)
      rw [hbok i (diff_left hi)] at this
      exact this
  obtain ⟨st2, ρ2, h5, h6⟩ := mergeRight_kept fuel obj (mc := s.2) ((diff (st.maps obj).base s.1).2.1 ++ (diff (st.maps obj).base s.1).2.2) h2.describes
    (by rw [h3]; exact hl) (by rw [h4]; exact hb.1)
    (by
      rw [h4]
      intro i hi
      rcases List.mem_append.1 hi with hi | hi
      · exact hm.within.base i (diff_both hi)
      · exact hb.2.1 i (diff_right hi))
    (by
      rw [h3]
      intro he
      simp [diff, hb.2.2 he])
    (by
      intro hmc i hi
      rcases List.mem_append.1 hi with hi | hi
      · exact hbok i (diff_both hi)
      · exact (ho hmc).1 i (diff_right hi))
  refine ⟨st2, ρ2, ?_, h2.trans h6⟩
  unfold mergeSide
  simp only [h1, h5]

theorem mergeSides_kept (fuel obj : Nat) {W : Nat → Contents} : ∀ (ss : List (List Item × B)) {st : State} {ρ : Env}, Describes st W ρ → (st.maps obj).layers = [] →
    (∀ s ∈ ss, SideBelow st.next (st.maps obj) s) → (∀ s ∈ ss, SideOk ρ (W obj) (st.maps obj) s) →
    ∃ st' ρ', mergeSides (fuel + 1) obj st ss = some st' ∧ Kept st W ρ st' ρ'
  | [], st, ρ, h, _, _, _ => ⟨st, ρ, rfl, Kept.refl h⟩
  | s :: ss, st, ρ, h, hl, hb, ho => by
    obtain ⟨st1, ρ1, h1, h2⟩ := mergeSide_kept fuel obj h hl (hb s (by simp)) (ho s (by simp))
    have hin : ∀ s ∈ ss, s.2.within st.next ∧ ∀ i ∈ s.1, i.within st.next := fun s hs => ⟨(hb s (by simp [hs])).1, (hb s (by simp [hs])).2.1⟩
    obtain ⟨st2, ρ2, h3, h4⟩ := mergeSides_kept fuel obj ss h2.describes (sameLayers_nil (h2.layers obj) hl)
      (fun s hs => ⟨B.within_mono h2.next _ (hin s hs).1, fun i hi => ⟨E.within_mono h2.next _ ((hin s hs).2 i hi).1, E.within_mono h2.next _ ((hin s hs).2 i hi).2.1,
        B.within_mono h2.next _ ((hin s hs).2 i hi).2.2⟩, by rw [h2.lengths obj]; exact (hb s (by simp [hs])).2.2⟩)
      (fun s hs => by
        intro hmc
        rw [← B.den_congr h2.agree _ (hin s hs).1] at hmc
        obtain ⟨g1, g2⟩ := ho s (by simp [hs]) hmc
        refine ⟨fun i hi => (Item.ok_congr h2.agree ((hin s hs).2 i hi)).1 (g1 i hi), ?_⟩
        rw [h2.invs obj]
        intro inv hinv k
        rw [← IB.sem_congr h2.agree _ _ _ _ ((h.maps obj).within.invs inv hinv)]
        exact g2 inv hinv k)
    refine ⟨st2, ρ2, ?_, h2.trans h4⟩
    unfold mergeSides
    simp only [h1, h3]

theorem mem_sameKeys {u : Item} {c : B} : ∀ {l : List Item}, c ∈ sameKeys u l → ∃ i ∈ l, ∃ j ∈ l ++ [u],
    c = implies (i.key.eq j.key) (.and (i.value.eq j.value) (.iff i.present j.present))
  | [], h => by simp [sameKeys] at h
  | i :: is, h => by
    simp only [sameKeys, List.mem_append] at h
    rcases h with h | h
    · simp only [sameAs, List.mem_map] at h
      obtain ⟨j, hj, rfl⟩ := h
      exact ⟨i, by simp, j, by simp at hj ⊢; tauto, rfl⟩
    · obtain ⟨i', hi', j, hj, rfl⟩ := mem_sameKeys h
      exact ⟨i', by simp [hi'], j, by simp at hj ⊢; tauto, rfl⟩

theorem mergeBase_kept (fuel obj : Nat) {W : Nat → Contents} {st : State} {ρ : Env} (h : Describes st W ρ) (hl : (st.maps obj).layers = [])
    {ss : List (List Item × B)} (hb : ∀ s ∈ ss, SideBelow st.next (st.maps obj) s) (ho : ∀ s ∈ ss, SideOk ρ (W obj) (st.maps obj) s) :
    ∃ st' ρ', mergeBase (fuel + 1) obj st ss = some st' ∧ Kept st W ρ st' ρ' := by
  obtain ⟨st1, ρ1, h1, h2⟩ := mergeSides_kept fuel obj ss h hl hb ho
  have hl1 := sameLayers_nil (h2.layers obj) hl
  have hm := h2.describes.maps obj
  have hok : ∀ i ∈ (st1.maps obj).base ++ [(st1.maps obj).unknown], i.ok ρ1 (W obj) ∧ i.within st1.next := by
    intro i hi
    rcases List.mem_append.1 hi with hi | hi
    · exact ⟨hm.base i hi (by rw [hl1]; simp [Untouched]), hm.within.base i hi⟩
    · rw [List.mem_singleton.1 hi]; exact ⟨hm.unknown, hm.within.unknown⟩
  have hk3 : Kept st1 W ρ1 (st1.add (sameKeys (st1.maps obj).unknown (st1.maps obj).base)) ρ1 := by
    refine Kept.add h2.describes fun c hc => ?_
    obtain ⟨i, hi, j, hj, rfl⟩ := mem_sameKeys hc
    obtain ⟨oi, wi⟩ := hok i (List.mem_append_left _ hi)
    obtain ⟨oj, wj⟩ := hok j hj
    refine ⟨⟨⟨wi.1, wj.1⟩, ⟨⟨wi.2.1, wj.2.1⟩, ⟨wi.2.2, wj.2.2⟩⟩⟩, ?_⟩
    rw [den_implies]
    intro he
    have he' : i.key.den ρ1 = j.key.den ρ1 := by simpa [den_eq] using he
    unfold Item.ok at oi oj
    rw [← he', oi] at oj
    simp only [Prod.mk.injEq] at oj
    simp [B.den, den_eq, oj.1, oj.2]
  generalize hst2 : st1.add (sameKeys (st1.maps obj).unknown (st1.maps obj).base) = st2 at hk3
  have hmap2 : st2.maps = st1.maps := by rw [← hst2]; rfl
  have hd : overfullCheck st2 obj 0 = (notOverfull st2.constraints (st1.maps obj).baseLength (st1.maps obj).base,
      st2.setMap obj (st1.maps obj)) := by
    unfold overfullCheck
    simp only [hmap2, hl1, List.drop_nil, known, lengthOf, MapS.setLower, List.take_nil, List.append_nil]
    rw [show ({ st1.maps obj with layers := [] } : MapS) = st1.maps obj by rw [← hl1]]
  have hset : st2.setMap obj (st1.maps obj) = st2 := by
    unfold State.setMap
    rw [← hmap2]
    have : (fun o => if o = obj then st2.maps obj else st2.maps o) = st2.maps := by
      funext o; split
      · rename_i e; rw [e]
      · rfl
    rw [this]
  have hlen := hm.length 0
  rw [hl1] at hlen
  have hk4 : Kept st2 W ρ1 (st2.add [notOverfull st2.constraints (st1.maps obj).baseLength (st1.maps obj).base]) ρ1 := by
    refine Kept.add hk3.describes fun c hc => ?_
    rw [List.mem_singleton.1 hc]
    have hn : st2.next = st1.next := by rw [← hst2]; rfl
    rw [hn]
    exact ⟨notOverfull_below hm.within.length hm.within.base, notOverfull_holds hlen fun i hi => (hok i (List.mem_append_left _ hi)).1⟩
  refine ⟨_, ρ1, ?_, (h2.trans hk3).trans hk4⟩
  unfold mergeBase
  simp only [h1, hst2, hl1, List.length_nil, hd, hset]

/-- The state has only more constraints and more items for the map. -/
structure Later (obj : Nat) (st st' : State) : Prop where
  constraints : ∀ c ∈ st.constraints, c ∈ st'.constraints
  base : ∀ i ∈ (st.maps obj).base, i ∈ (st'.maps obj).base
  unknown : (st'.maps obj).unknown = (st.maps obj).unknown
  layers : (st'.maps obj).layers = []
  length : (st'.maps obj).baseLength = (st.maps obj).baseLength
  invs : (st'.maps obj).invs = (st.maps obj).invs
  next : st.next ≤ st'.next
  others : ∀ o, o ≠ obj → st'.maps o = st.maps o
  below : MapBelow st.next (st.maps obj) → MapBelow st'.next (st'.maps obj)

theorem Later.trans {obj : Nat} {a b c : State} (h : Later obj a b) (h' : Later obj b c) : Later obj a c :=
  ⟨fun x hx => h'.constraints x (h.constraints x hx), fun i hi => h'.base i (h.base i hi), h'.unknown.trans h.unknown, h'.layers, h'.length.trans h.length,
    h'.invs.trans h.invs, Nat.le_trans h.next h'.next, fun o ho => (h'.others o ho).trans (h.others o ho), fun hb => h'.below (h.below hb)⟩

theorem Later.add {obj : Nat} {st : State} (hl : (st.maps obj).layers = []) (cs : List B) : Later obj st (st.add cs) :=
  ⟨fun _ hx => List.mem_append_right _ hx, fun _ hi => hi, rfl, hl, rfl, rfl, Nat.le_refl _, fun _ _ => rfl, fun h => h⟩

/-- The recorded items, and the unknown item, are right. -/
def AllOk (ρ : Env) (w : Contents) (m : MapS) : Prop := ∀ i ∈ m.base ++ [m.unknown], i.ok ρ w

theorem Later.allOk {obj : Nat} {a b : State} (h : Later obj a b) {ρ : Env} {w : Contents} (ho : AllOk ρ w (b.maps obj)) : AllOk ρ w (a.maps obj) := by
  intro i hi
  rcases List.mem_append.1 hi with hi | hi
  · exact ho i (List.mem_append_left _ (h.base i hi))
  · rw [List.mem_singleton.1 hi, ← h.unknown]; exact ho _ (by simp)

theorem get_exact (fuel obj : Nat) {st st' : State} {key : E} {r : E × B} (hl : (st.maps obj).layers = []) (he : isEmpty (st.maps obj).baseLength = false)
    (hk : key.within st.next) (hi : ∀ inv ∈ (st.maps obj).invs, inv.pure st.next) (hg : get (fuel + 1) st obj (some 0) key none (.lit true) = some (r, st')) :
    Later obj st st' ∧ ∀ ρ w, sat st'.constraints ρ → AllOk ρ w (st'.maps obj) → w (key.den ρ) = (r.1.den ρ, r.2.den ρ) := by
  have hlen : isEmpty (lengthOf (st.maps obj) ((st.maps obj).layers.drop (skip (st.maps obj) (some 0)))) = false := by rw [hl]; simpa [lengthOf] using he
  have hkn : known (st.maps obj).base ((st.maps obj).layers.drop (skip (st.maps obj) (some 0))) = ((st.maps obj).base, []) := by rw [hl]; simp [known]
  cases hm : exactMatch st.constraints key ((known (st.maps obj).base ((st.maps obj).layers.drop (skip (st.maps obj) (some 0)))).1 ++ [(st.maps obj).unknown]) (.lit true) with
  | some i =>
    rw [get_hit fuel st obj (some 0) key none (.lit true) i hlen hm] at hg
    simp only [Option.some.injEq, Prod.mk.injEq] at hg
    obtain ⟨rfl, rfl⟩ := hg
    obtain ⟨h1, h2⟩ := exactMatch_sound hm
    rw [hkn] at h1
    refine ⟨⟨fun _ h => h, ?_, ?_, ?_, ?_, ?_, Nat.le_refl _, fun o ho => setMap_other _ ho _, fun hb => ?_⟩, fun ρ w hs ho => ?_⟩
    · rw [setMap_same]; exact fun _ h => h
    · rw [setMap_same]; rfl
    · rw [setMap_same, hkn]; simp [MapS.setLower, hl]
    · rw [setMap_same]; rfl
    · rw [setMap_same]; rfl
    · rw [setMap_same, hkn]; exact ⟨hb.base, hb.length, hb.unknown, by simp [MapS.setLower, hl], hb.invs⟩
    · rw [h2 ρ hs rfl]
      exact ho i (by rw [setMap_same]; exact h1)
  | none =>
    obtain ⟨st2, h1, -, h3, -, h5, h6, h7, h8, h9, h10, h11, -⟩ := get_miss fuel st obj (some 0) key none (.lit true) hlen hm hk hi
    rw [h1] at hg
    simp only [Option.some.injEq, Prod.mk.injEq] at hg
    obtain ⟨rfl, rfl⟩ := hg
    have hlay : (st2.maps obj).layers = [] := by
      have := h8 (by simp [skip, hl])
      rw [this, hl]; simp [known]
    refine ⟨⟨h3, by rw [h7]; exact fun i hi => List.mem_append_left _ hi, h9, hlay, h11, h10, by omega, h6, fun hb => ?_⟩, fun ρ w hs ho => ?_⟩
    · have hb' := hb.mono (Nat.le_succ st.next)
      rw [h5]
      refine ⟨?_, by rw [h11]; exact hb'.length, by rw [h9]; exact hb'.unknown, by simp [hlay], by rw [h10]; exact hb'.invs⟩
      rw [h7]
      intro i hi
      rcases List.mem_append.1 hi with hi | hi
      · exact hb'.base i hi
      · rw [List.mem_singleton.1 hi]; exact ⟨E.within_mono (Nat.le_succ _) _ hk, Nat.lt_succ_self _, Nat.lt_succ_self _⟩
    · exact ho ⟨key, .var st.next, .var st.next⟩ (by rw [h7]; simp)

theorem mergeLeft_exact (fuel obj : Nat) {invs : List IB} {mc : B} :
    ∀ (is : List Item) {st st' : State}, (st.maps obj).layers = [] → (∀ inv ∈ invs, inv.pure st.next) → (∀ i ∈ is, i.within st.next) →
      mergeLeft fuel invs mc st is = some st' → Later obj st st' ∧ st'.maps = st.maps ∧ st'.next = st.next
  | [], st, st', hl, _, _, h => by
    simp only [mergeLeft, Option.some.injEq] at h
    subst h
    exact ⟨Later.add hl [], rfl, rfl⟩
  | i :: is, st, st', hl, hp, hw, h => by
    obtain ⟨bs, hbs, -⟩ := applyInvs_pure (get fuel) i (.lit true) st (hw i (by simp)) (Nat.le_refl _) invs hp
    unfold mergeLeft at h
    simp only [hbs] at h
    obtain ⟨h1, h2, h3⟩ := mergeLeft_exact fuel obj is (st := st.add (bs.map (implies mc))) hl hp (fun j hj => hw j (by simp [hj])) h
    exact ⟨(Later.add hl _).trans h1, h2, h3⟩

theorem mergeRight_exact (fuel obj : Nat) {mc : B} :
    ∀ (is : List Item) {st st' : State}, (st.maps obj).layers = [] → (∀ inv ∈ (st.maps obj).invs, inv.pure st.next) → (∀ i ∈ is, i.within st.next) →
      (isEmpty (st.maps obj).baseLength = true → is = []) → mergeRight (fuel + 1) obj mc st is = some st' →
      Later obj st st' ∧ ∀ ρ w, sat st'.constraints ρ → AllOk ρ w (st'.maps obj) → mc.den ρ = true → ∀ i ∈ is, i.ok ρ w
  | [], st, st', hl, _, _, _, h => by
    simp only [mergeRight, Option.some.injEq] at h
    subst h
    exact ⟨Later.add hl [], by simp⟩
  | i :: is, st, st', hl, hp, hw, he, h => by
    have hemp : isEmpty (st.maps obj).baseLength = false := by
      cases he' : isEmpty (st.maps obj).baseLength with
      | false => rfl
      | true => exact absurd (he he') (by simp)
    unfold mergeRight at h
    cases hg : get (fuel + 1) st obj (some 0) i.key none (.lit true) with
    | none => simp [hg] at h
    | some p =>
      obtain ⟨r, st1⟩ := p
      simp only [hg] at h
      obtain ⟨g1, g2⟩ := get_exact fuel obj hl hemp (hw i (by simp)).1 hp hg
      set st2 := st1.add [implies mc (.and (r.1.eq i.value) (.iff r.2 i.present))] with hst2
      have ha : Later obj st1 st2 := Later.add g1.layers _
      obtain ⟨h1, h2⟩ := mergeRight_exact fuel obj is (st := st2) g1.layers
        (fun inv hinv => IB.pure_mono g1.next _ (hp inv (by rw [← g1.invs]; exact hinv)))
        (fun j hj => ⟨E.within_mono g1.next _ (hw j (by simp [hj])).1, E.within_mono g1.next _ (hw j (by simp [hj])).2.1, B.within_mono g1.next _ (hw j (by simp [hj])).2.2⟩)
        (fun he' => by
          change isEmpty (st1.maps obj).baseLength = true at he'
          rw [g1.length, hemp] at he'; exact absurd he' (by simp)) h
      refine ⟨(g1.trans ha).trans h1, fun ρ w hs ho hmc => ?_⟩
      simp only [List.forall_mem_cons]
      refine ⟨?_, h2 ρ w hs ho hmc⟩
      have hg := g2 ρ w (fun c hc => hs c ((ha.trans h1).constraints c hc)) ((ha.trans h1).allOk ho)
      have hc := hs (implies mc (.and (r.1.eq i.value) (.iff r.2 i.present))) (h1.constraints _ (by simp [hst2, State.add]))
      rw [den_implies] at hc
      have hc := hc hmc
      simp only [B.den, den_eq, Bool.and_eq_true, beq_iff_eq] at hc
      unfold Item.ok
      rw [hg, hc.1, hc.2]

theorem mergeSide_exact (fuel obj : Nat) {st st' : State} {s : List Item × B} (hl : (st.maps obj).layers = []) (hm : MapBelow st.next (st.maps obj))
    (hb : SideBelow st.next (st.maps obj) s) (h : mergeSide (fuel + 1) obj st s = some st') :
    Later obj st st' ∧ ∀ ρ w, sat st'.constraints ρ → AllOk ρ w (st'.maps obj) → s.2.den ρ = true → ∀ i ∈ s.1, i.ok ρ w := by
  unfold mergeSide at h
  cases h1 : mergeLeft (fuel + 1) (st.maps obj).invs s.2 st (diff (st.maps obj).base s.1).1 with
  | none => simp [h1] at h
  | some st1 =>
    simp only [h1] at h
    obtain ⟨g1, g2, g3⟩ := mergeLeft_exact (fuel + 1) obj _ hl hm.invs (fun i hi => hm.base i (diff_left hi)) h1
    obtain ⟨h2, h3⟩ := mergeRight_exact fuel obj _ g1.layers (by rw [g2, g3]; exact hm.invs)
      (by
        rw [g3]
        intro i hi
        rcases List.mem_append.1 hi with hi | hi
        · exact hm.base i (diff_both hi)
        · exact hb.2.1 i (diff_right hi))
      (by
        rw [g2]
        intro he
        simp [diff, hb.2.2 he]) h
    refine ⟨g1.trans h2, fun ρ w hs ho hmc i hi => ?_⟩
    rcases mem_diff (left := (st.maps obj).base) hi with ⟨j, hj, hs'⟩ | hj
    · exact Item.same_ok hs' (h3 ρ w hs ho hmc j (List.mem_append_left _ hj))
    · exact h3 ρ w hs ho hmc i (List.mem_append_right _ hj)

theorem mergeSides_exact (fuel obj : Nat) : ∀ (ss : List (List Item × B)) {st st' : State}, (st.maps obj).layers = [] → MapBelow st.next (st.maps obj) →
    (∀ s ∈ ss, SideBelow st.next (st.maps obj) s) → mergeSides (fuel + 1) obj st ss = some st' →
    Later obj st st' ∧ ∀ ρ w, sat st'.constraints ρ → AllOk ρ w (st'.maps obj) → ∀ s ∈ ss, s.2.den ρ = true → ∀ i ∈ s.1, i.ok ρ w
  | [], st, st', hl, _, _, h => by
    simp only [mergeSides, Option.some.injEq] at h
    subst h
    exact ⟨Later.add hl [], by simp⟩
  | s :: ss, st, st', hl, hm, hb, h => by
    unfold mergeSides at h
    cases h1 : mergeSide (fuel + 1) obj st s with
    | none => simp [h1] at h
    | some st1 =>
      simp only [h1] at h
      obtain ⟨g1, g2⟩ := mergeSide_exact fuel obj hl hm (hb s (by simp)) h1
      obtain ⟨h2, h3⟩ := mergeSides_exact fuel obj ss g1.layers (g1.below hm) (fun s hs => by
        have hs' := hb s (by simp [hs])
        refine ⟨B.within_mono g1.next _ hs'.1, fun i hi => ⟨E.within_mono g1.next _ (hs'.2.1 i hi).1, E.within_mono g1.next _ (hs'.2.1 i hi).2.1,
          B.within_mono g1.next _ (hs'.2.1 i hi).2.2⟩, by rw [g1.length]; exact hs'.2.2⟩) h
      refine ⟨g1.trans h2, fun ρ w hs ho => ?_⟩
      simp only [List.forall_mem_cons]
      exact ⟨g2 ρ w (fun c hc => hs c (h2.constraints c hc)) (h2.allOk ho), h3 ρ w hs ho⟩

theorem mergeBase_exact (fuel obj : Nat) {st st' : State} {ss : List (List Item × B)} (hl : (st.maps obj).layers = []) (hm : MapBelow st.next (st.maps obj))
    (hb : ∀ s ∈ ss, SideBelow st.next (st.maps obj) s) (h : mergeBase (fuel + 1) obj st ss = some st') :
    Later obj st st' ∧ ∀ ρ w, sat st'.constraints ρ → AllOk ρ w (st'.maps obj) → ∀ s ∈ ss, s.2.den ρ = true → ∀ i ∈ s.1, i.ok ρ w := by
  unfold mergeBase at h
  cases h1 : mergeSides (fuel + 1) obj st ss with
  | none => simp [h1] at h
  | some st1 =>
    simp only [h1, Option.some.injEq] at h
    obtain ⟨g1, g2⟩ := mergeSides_exact fuel obj ss hl hm hb h1
    have hl' : Later obj st1 st' := by
      rw [← h]
      unfold overfullCheck
      refine ⟨fun c hc => ?_, fun i hi => ?_, ?_, ?_, ?_, ?_, Nat.le_refl _, fun o ho => ?_, fun hb => ?_⟩
      · simp [State.add, State.setMap, hc]
      · simpa [State.add, State.setMap, MapS.setLower] using hi
      · simp [State.add, State.setMap, MapS.setLower]
      · simp [State.add, State.setMap, MapS.setLower, g1.layers, known]
      · simp [State.add, State.setMap, MapS.setLower]
      · simp [State.add, State.setMap, MapS.setLower]
      · simp [State.add, State.setMap, ho]
      · simp only [State.add, State.setMap, MapS.setLower, g1.layers, if_true]
        exact ⟨hb.base, hb.length, hb.unknown, by simp [known], hb.invs⟩
    exact ⟨g1.trans hl', fun ρ w hs ho => g2 ρ w (fun c hc => hs c (hl'.constraints c hc)) (hl'.allOk ho)⟩

/-- `Later` for any map, whichever was merged. -/
structure Follows (obj : Nat) (st st' : State) : Prop where
  constraints : ∀ c ∈ st.constraints, c ∈ st'.constraints
  base : ∀ i ∈ (st.maps obj).base, i ∈ (st'.maps obj).base
  unknown : (st'.maps obj).unknown = (st.maps obj).unknown
  layers : (st'.maps obj).layers = []
  length : (st'.maps obj).baseLength = (st.maps obj).baseLength
  next : st.next ≤ st'.next
  below : MapBelow st.next (st.maps obj) → MapBelow st'.next (st'.maps obj)

theorem Follows.trans {obj : Nat} {a b c : State} (h : Follows obj a b) (h' : Follows obj b c) : Follows obj a c :=
  ⟨fun x hx => h'.constraints x (h.constraints x hx), fun i hi => h'.base i (h.base i hi), h'.unknown.trans h.unknown, h'.layers, h'.length.trans h.length,
    Nat.le_trans h.next h'.next, fun hb => h'.below (h.below hb)⟩

theorem Follows.allOk {obj : Nat} {a b : State} (h : Follows obj a b) {ρ : Env} {w : Contents} (ho : AllOk ρ w (b.maps obj)) : AllOk ρ w (a.maps obj) := by
  intro i hi
  rcases List.mem_append.1 hi with hi | hi
  · exact ho i (List.mem_append_left _ (h.base i hi))
  · rw [List.mem_singleton.1 hi, ← h.unknown]; exact ho _ (by simp)

theorem Later.follows {o : Nat} {st st' : State} (h : Later o st st') (obj : Nat) (hl : (st.maps obj).layers = []) : Follows obj st st' := by
  by_cases hne : obj = o
  · subst hne
    exact ⟨h.constraints, h.base, h.unknown, h.layers, h.length, h.next, h.below⟩
  · have e := h.others obj hne
    exact ⟨h.constraints, by rw [e]; exact fun _ h => h, by rw [e], by rw [e]; exact hl, by rw [e], h.next, fun hb => by rw [e]; exact hb.mono h.next⟩

/-- The items of the other maps with their merge conditions, of which the first is that of the merging map itself. -/
def sides (others : List (Nat → MapS)) (mcs : List B) (obj : Nat) : List (List Item × B) := (others.map fun o => (o obj).base).zip mcs.tail

theorem merge_base (fuel : Nat) {st : State} {obj : Nat} {others : List (Nat → MapS)} {mcs : List B} (hl : (st.maps obj).layers = [])
    (ho : ∀ o ∈ others, (o obj).layers = []) :
    merge fuel st obj (others.map fun o => o obj) mcs = if others.all (fun o => sameMaps (st.maps obj) (o obj) [] []) then some st
      else mergeBase fuel obj st (sides others mcs obj) := by
  unfold merge
  rw [hl]
  unfold mergeFrom
  have h1 : ((others.map fun o => o obj).map fun o => (o, o.layers)).all (fun o => sameMaps (st.maps obj) o.1 [] o.2) =
      others.all (fun o => sameMaps (st.maps obj) (o obj) [] []) := by
    rw [List.map_map, List.all_map, Bool.eq_iff_iff, List.all_eq_true, List.all_eq_true]
    refine forall₂_congr fun o ho' => ?_
    simp [ho o ho']
  rw [h1]
  simp [sides, Function.comp_def]

/-- None of the maps to merge has been updated, and reads of a map known to be empty were not recorded. -/
structure Plain (st : State) (others : List (Nat → MapS)) (mcs : List B) (obj : Nat) : Prop where
  layers : (st.maps obj).layers = []
  others_layers : ∀ o ∈ others, (o obj).layers = []
  sides : ∀ s ∈ sides others mcs obj, SideBelow st.next (st.maps obj) s

theorem mergeAll_kept (fuel : Nat) {W : Nat → Contents} {others : List (Nat → MapS)} {mcs : List B} : ∀ (objs : List Nat) {st : State} {ρ : Env}, Describes st W ρ →
    (∀ obj ∈ objs, Plain st others mcs obj) → (∀ obj ∈ objs, ∀ s ∈ sides others mcs obj, SideOk ρ (W obj) (st.maps obj) s) →
    ∃ st' ρ', mergeAll (fuel + 1) others mcs st objs = some st' ∧ Kept st W ρ st' ρ'
  | [], st, ρ, h, _, _ => ⟨st, ρ, rfl, Kept.refl h⟩
  | obj :: objs, st, ρ, h, hp, hs => by
    have h1 : ∃ st1 ρ1, merge (fuel + 1) st obj (others.map fun o => o obj) mcs = some st1 ∧ Kept st W ρ st1 ρ1 := by
      have hpo := hp obj (by simp)
      rw [merge_base _ hpo.layers hpo.others_layers]
      split
      · exact ⟨st, ρ, rfl, Kept.refl h⟩
      · exact mergeBase_kept fuel obj h hpo.layers hpo.sides (hs obj (by simp))
    obtain ⟨st1, ρ1, h1, h2⟩ := h1
    obtain ⟨st2, ρ2, h3, h4⟩ := mergeAll_kept fuel objs h2.describes
      (fun o ho => by
        have := hp o (by simp [ho])
        exact ⟨sameLayers_nil (h2.layers o) this.layers, this.others_layers, fun s hs' => ⟨B.within_mono h2.next _ (this.sides s hs').1,
          fun i hi => ⟨E.within_mono h2.next _ ((this.sides s hs').2.1 i hi).1, E.within_mono h2.next _ ((this.sides s hs').2.1 i hi).2.1,
            B.within_mono h2.next _ ((this.sides s hs').2.1 i hi).2.2⟩, by rw [h2.lengths o]; exact (this.sides s hs').2.2⟩⟩)
      (fun o ho s hs' hmc => by
        have hw := (hp o (by simp [ho])).sides s hs'
        rw [← B.den_congr h2.agree _ hw.1] at hmc
        obtain ⟨g1, g2⟩ := hs o (by simp [ho]) s hs' hmc
        refine ⟨fun i hi => (Item.ok_congr h2.agree (hw.2.1 i hi)).1 (g1 i hi), ?_⟩
        rw [h2.invs o]
        intro inv hinv k
        rw [← IB.sem_congr h2.agree _ _ _ _ ((h.maps o).within.invs inv hinv)]
        exact g2 inv hinv k)
    refine ⟨st2, ρ2, ?_, h2.trans h4⟩
    unfold mergeAll
    simp only [h1, h3]

theorem mergeAll_exact (fuel : Nat) {others : List (Nat → MapS)} {mcs : List B} : ∀ (objs : List Nat) {st st' : State},
    (∀ obj ∈ objs, Plain st others mcs obj ∧ MapBelow st.next (st.maps obj)) → mergeAll (fuel + 1) others mcs st objs = some st' →
    (∀ obj, (st.maps obj).layers = [] → Follows obj st st') ∧
    ∀ obj ∈ objs, ∀ ρ w, sat st'.constraints ρ → AllOk ρ w (st'.maps obj) → ∀ s ∈ sides others mcs obj, s.2.den ρ = true → ∀ i ∈ s.1, i.ok ρ w
  | [], st, st', _, h => by
    simp only [mergeAll, Option.some.injEq] at h
    subst h
    exact ⟨fun obj hl => (Later.add hl []).follows obj hl, by simp⟩
  | obj :: objs, st, st', hp, h => by
    have hpo := hp obj (by simp)
    unfold mergeAll at h
    cases h1 : merge (fuel + 1) st obj (others.map fun o => o obj) mcs with
    | none => simp [h1] at h
    | some st1 =>
      simp only [h1] at h
      rw [merge_base _ hpo.1.layers hpo.1.others_layers] at h1
      have h2 : Later obj st st1 ∧ ∀ ρ w, sat st1.constraints ρ → AllOk ρ w (st1.maps obj) → ∀ s ∈ sides others mcs obj, s.2.den ρ = true → ∀ i ∈ s.1, i.ok ρ w := by
        split at h1
        · rename_i hall
          simp only [Option.some.injEq] at h1
          subst h1
          refine ⟨Later.add hpo.1.layers [], fun ρ w _ ho s hs _ => ?_⟩
          have hm := (List.of_mem_zip hs).1
          obtain ⟨o, ho', e⟩ := List.mem_map.1 hm
          have := List.all_eq_true.1 hall o ho'
          simp only [sameMaps, Bool.and_eq_true] at this
          rw [← e]
          exact sameItems_ok this.1.2 fun i hi => ho i (List.mem_append_left _ hi)
        · exact mergeBase_exact fuel obj hpo.1.layers hpo.2 hpo.1.sides h1
      obtain ⟨h2, h3⟩ := h2
      obtain ⟨h4, h5⟩ := mergeAll_exact fuel objs (fun o ho => by
        have hpo' := hp o (by simp [ho])
        have hf := h2.follows o hpo'.1.layers
        refine ⟨⟨hf.layers, hpo'.1.others_layers, fun s hs' => ⟨B.within_mono hf.next _ (hpo'.1.sides s hs').1,
          fun i hi => ⟨E.within_mono hf.next _ ((hpo'.1.sides s hs').2.1 i hi).1, E.within_mono hf.next _ ((hpo'.1.sides s hs').2.1 i hi).2.1,
            B.within_mono hf.next _ ((hpo'.1.sides s hs').2.1 i hi).2.2⟩, by rw [hf.length]; exact (hpo'.1.sides s hs').2.2⟩⟩, hf.below hpo'.2⟩) h
      refine ⟨fun o hl => (h2.follows o hl).trans (h4 o (h2.follows o hl).layers), ?_⟩
      simp only [List.forall_mem_cons]
      refine ⟨fun ρ w hs ho => ?_, h5⟩
      have hf := h4 obj h2.layers
      exact h3 ρ w (fun c hc => hs c (hf.constraints c hc)) (hf.allOk ho)

/-- The state is one where the program took another of the merged paths: only the first `n` symbols were used there. What the merging
state recorded on its own path are reads, each with a symbol of its own; the constraints, which are those of the merged solvers, hold
whatever these are. -/
structure OtherPath (n : Nat) (st : State) (W : Nat → Contents) (ρ : Env) : Prop where
  sat : ∀ ρ', Agree n ρ ρ' → sat st.constraints ρ'
  within : ∀ c ∈ st.constraints, c.within st.next
  le : n ≤ st.next
  layers : ∀ o, (st.maps o).layers = []
  below : ∀ o, MapBelow st.next (st.maps o)
  unknown : ∀ o, (st.maps o).unknown.within n ∧ (st.maps o).unknown.ok ρ (W o)
  length : ∀ o, (st.maps o).baseLength.within n ∧ LenOk ρ (W o) (st.maps o).baseLength
  invs : ∀ o, ∀ inv ∈ (st.maps o).invs, inv.pure n ∧ ∀ k, inv.sem noMaps ρ k (W o k).1 (W o k).2 = true
  items : ∀ o, ∀ i ∈ (st.maps o).base, (i.within n ∧ i.ok ρ (W o)) ∨ ∃ a key, n ≤ a ∧ i = ⟨key, .var a, .var a⟩ ∧ key.within a
  own : ∀ o o' a key key', n ≤ a → (⟨key, .var a, .var a⟩ : Item) ∈ (st.maps o).base → (⟨key', .var a, .var a⟩ : Item) ∈ (st.maps o').base →
    o = o' ∧ key = key'

theorem OtherPath.describes {n : Nat} {st : State} {W : Nat → Contents} {ρ : Env} (h : OtherPath n st W ρ) :
    ∃ ρ', Agree n ρ ρ' ∧ Describes st W ρ' := by
  have key : ∀ m, n ≤ m → ∃ ρ', Agree n ρ ρ' ∧ ∀ o, ∀ i ∈ (st.maps o).base, i.within m → i.ok ρ' (W o) := by
    intro m hm
    induction m, hm using Nat.le_induction with
    | base =>
      refine ⟨ρ, Agree.refl _ _, fun o i hi hw => ?_⟩
      rcases h.items o i hi with h' | ⟨a, key, ha, rfl, -⟩
      · exact h'.2
      · have : a < n := hw.2.1
        omega
    | succ m hm ih =>
      obtain ⟨ρ1, ha, hok⟩ := ih
      by_cases hex : ∃ o key, (⟨key, .var m, .var m⟩ : Item) ∈ (st.maps o).base
      · obtain ⟨o, key, hin⟩ := hex
        have hag : Agree m ρ1 (ρ1.assign m (W o (key.den ρ1)).1 (W o (key.den ρ1)).2) := agree_assign _ _ _ _
        refine ⟨ρ1.assign m (W o (key.den ρ1)).1 (W o (key.den ρ1)).2, ha.trans hag hm, fun o' i hi hw => ?_⟩
        rcases h.items o' i hi with h' | ⟨a, key', hna, rfl, hk⟩
        · exact (Item.ok_congr (ha.trans hag hm) h'.1).1 h'.2
        · have hlt : a < m + 1 := hw.2.1
          by_cases hne : a = m
          · subst hne
            obtain ⟨rfl, rfl⟩ := h.own o o' a key key' hna hin hi
            unfold Item.ok
            rw [← E.den_congr hag _ hk]
            simp [E.den, B.den, Env.assign]
          · have hw' : Item.within m ⟨key', .var a, .var a⟩ := ⟨E.within_mono (by omega) _ hk, show a < m by omega, show a < m by omega⟩
            exact (Item.ok_congr hag hw').1 (hok o' _ hi hw')
      · refine ⟨ρ1, ha, fun o' i hi hw => ?_⟩
        rcases h.items o' i hi with h' | ⟨a, key', hna, rfl, hk⟩
        · exact (Item.ok_congr ha h'.1).1 h'.2
        · have hlt : a < m + 1 := hw.2.1
          have hne : a ≠ m := fun e => hex ⟨o', key', by rw [← e]; exact hi⟩
          exact hok o' _ hi ⟨E.within_mono (by omega) _ hk, show a < m by omega, show a < m by omega⟩
  obtain ⟨ρ', ha, hok⟩ := key st.next h.le
  refine ⟨ρ', ha, ⟨h.sat ρ' ha, h.within, fun o => ⟨h.below o, ?_, ?_, fun i hi _ => hok o i hi ((h.below o).base i hi), ?_,
    (Item.ok_congr ha (h.unknown o).1).1 (h.unknown o).2, ?_, fun inv hinv k _ => ?_, fun d => ?_⟩⟩⟩
  · rw [h.layers o]; trivial
  · simp [h.layers o]
  · simp [h.layers o, Untouched]
  · simp [h.layers o]
  · rw [← IB.sem_congr ha _ _ _ _ (h.invs o inv hinv).1]; exact (h.invs o inv hinv).2 k
  · rw [h.layers o, List.drop_nil]
    obtain ⟨S, h1, h2, h3⟩ := (h.length o).2
    exact ⟨S, h1, by rw [← h2]; exact (E.den_congr ha _ (h.length o).1).symm, h3⟩

end Verif.Tool.GhostMap

namespace Verif.Props

open Verif.Tool.GhostMap

/-- C26: maps that `can_merge` accepts have as many versions, the same invariants, and under every assignment the same unknown item and the same length in
each version. -/
theorem C26_can_merge (a b : MapS) : ∀ la lb : List Layer, canMerge a b la lb = true → la.length = lb.length ∧ a.invs = b.invs ∧
    (∀ ρ, a.unknown.key.den ρ = b.unknown.key.den ρ ∧ a.unknown.value.den ρ = b.unknown.value.den ρ ∧ a.unknown.present.den ρ = b.unknown.present.den ρ) ∧
    ∀ d ρ, (lengthOf a (la.drop d)).den ρ = (lengthOf b (lb.drop d)).den ρ := by
  have unk : a.unknown.same b.unknown = true →
      ∀ ρ, a.unknown.key.den ρ = b.unknown.key.den ρ ∧ a.unknown.value.den ρ = b.unknown.value.den ρ ∧ a.unknown.present.den ρ = b.unknown.present.den ρ := by
    intro h ρ
    simp only [Item.same, Bool.and_eq_true] at h
    exact ⟨E.same_sound h.1.1 ρ, E.same_sound h.1.2 ρ, B.same_sound h.2 ρ⟩
  have hsame : ∀ la lb : List Layer, sameMaps a b la lb = true → la.length = lb.length ∧ a.invs = b.invs ∧
      (∀ ρ, a.unknown.key.den ρ = b.unknown.key.den ρ ∧ a.unknown.value.den ρ = b.unknown.value.den ρ ∧ a.unknown.present.den ρ = b.unknown.present.den ρ) ∧
      ∀ d ρ, (lengthOf a (la.drop d)).den ρ = (lengthOf b (lb.drop d)).den ρ := by
    intro la
    induction la with
    | nil =>
      intro lb h
      cases lb with
      | nil =>
        simp only [sameMaps, Bool.and_eq_true, decide_eq_true_eq] at h
        exact ⟨rfl, h.1.1.1, unk h.2, fun d ρ => by simpa [lengthOf] using E.same_sound h.1.1.2 ρ⟩
      | cons => simp [sameMaps] at h
    | cons l ls ih =>
      intro lb h
      cases lb with
      | nil => simp [sameMaps] at h
      | cons k ks =>
        simp only [sameMaps, Bool.and_eq_true, decide_eq_true_eq] at h
        obtain ⟨i1, i2, i3, i4⟩ := ih ks h.2
        refine ⟨by simp [i1], i2, i3, fun d ρ => ?_⟩
        cases d with
        | zero => exact E.same_sound h.1.1.1.2 ρ
        | succ d => exact i4 d ρ
  intro la
  induction la with
  | nil =>
    intro lb h
    cases lb with
    | nil =>
      simp only [canMerge, Bool.or_eq_true] at h
      rcases h with h | h
      · exact hsame [] [] h
      · simp only [Bool.and_eq_true, decide_eq_true_eq] at h
        exact ⟨rfl, h.1.1.1, unk h.1.2, fun d ρ => by simpa [lengthOf] using E.same_sound h.1.1.2 ρ⟩
    | cons => simp [canMerge] at h
  | cons l ls ih =>
    intro lb h
    cases lb with
    | nil => simp [canMerge] at h
    | cons k ks =>
      simp only [canMerge, Bool.or_eq_true] at h
      rcases h with h | h
      · exact hsame _ _ h
      · simp only [Bool.and_eq_true, decide_eq_true_eq] at h
        obtain ⟨i1, i2, i3, i4⟩ := ih ks h.1.1.2
        refine ⟨by simp [i1], i2, i3, fun d ρ => ?_⟩
        cases d with
        | zero => exact E.same_sound h.1.1.1.1.2 ρ
        | succ d => exact i4 d ρ

/-- C26, what the merging path knew: if the merged maps have not been updated, merging loses no contents of the path of the merging state, where no other merge condition holds. The full claim, which also
covers updated maps, is false: `C26_layers_swapped`. -/
theorem C26_own_path_partial (fuel : Nat) {st : State} {W : Nat → Contents} {ρ : Env} (h : Describes st W ρ) (others : List (Nat → MapS)) (mcs : List B) (objs : List Nat)
    (hp : ∀ obj ∈ objs, Plain st others mcs obj) (hmc : ∀ mc ∈ mcs.tail, mc.den ρ = false) :
    ∃ st' ρ', mergeAll (fuel + 1) others mcs st objs = some st' ∧ Agree st.next ρ ρ' ∧ Describes st' W ρ' := by
  obtain ⟨st', ρ', h1, h2⟩ := mergeAll_kept fuel objs h hp fun obj _ s hs hc => by
    have := hmc s.2 (List.of_mem_zip hs).2
    rw [this] at hc; exact absurd hc (by simp)
  exact ⟨st', ρ', h1, h2.agree, h2.describes⟩

/-- C26, what the other paths knew: if the merged maps have not been updated, merging loses no contents of another path, where its merge
condition holds and what it recorded is right. Not covered: updated maps, see `C26_own_path_partial`. -/
theorem C26_other_path_partial (fuel n : Nat) {st : State} {W : Nat → Contents} {ρ : Env} (h : OtherPath n st W ρ) (others : List (Nat → MapS)) (mcs : List B) (objs : List Nat)
    (hp : ∀ obj ∈ objs, Plain st others mcs obj) (hw : ∀ obj ∈ objs, ∀ s ∈ (others.map fun o => (o obj).base).zip mcs.tail, s.2.within n ∧ ∀ i ∈ s.1, i.within n)
    (hs : ∀ obj ∈ objs, ∀ s ∈ (others.map fun o => (o obj).base).zip mcs.tail, s.2.den ρ = true → ∀ i ∈ s.1, i.ok ρ (W obj)) :
    ∃ st' ρ', mergeAll (fuel + 1) others mcs st objs = some st' ∧ Agree n ρ ρ' ∧ Describes st' W ρ' := by
  obtain ⟨ρ1, ha, hd⟩ := h.describes
  obtain ⟨st', ρ', h1, h2⟩ := mergeAll_kept fuel objs hd hp fun obj ho s hs' hc => by
    rw [← B.den_congr ha _ (hw obj ho s hs').1] at hc
    refine ⟨fun i hi => (Item.ok_congr ha ((hw obj ho s hs').2 i hi)).1 (hs obj ho s hs' hc i hi), fun inv hinv k => ?_⟩
    rw [← IB.sem_congr ha _ _ _ _ (h.invs obj inv hinv).1]
    exact (h.invs obj inv hinv).2 k
  exact ⟨st', ρ', h1, ha.trans h2.agree h.le, h2.describes⟩

/-- C26, exactness: if the merged maps have not been updated, whatever contents the merged state describes, what the merging state recorded is right about them,
and what another path recorded is right when its merge condition holds. Not covered: updated maps. -/
theorem C26_exact_partial (fuel : Nat) {st st' : State} (others : List (Nat → MapS)) (mcs : List B) (objs : List Nat)
    (hp : ∀ obj ∈ objs, Plain st others mcs obj ∧ MapBelow st.next (st.maps obj)) (hm : mergeAll (fuel + 1) others mcs st objs = some st') {W : Nat → Contents} {ρ : Env}
    (h : Describes st' W ρ) : sat st.constraints ρ ∧ ∀ obj ∈ objs, (∀ i ∈ (st.maps obj).base, i.ok ρ (W obj)) ∧
      ∀ s ∈ (others.map fun o => (o obj).base).zip mcs.tail, s.2.den ρ = true → ∀ i ∈ s.1, i.ok ρ (W obj) := by
  obtain ⟨h1, h2⟩ := mergeAll_exact fuel objs hp hm
  refine ⟨?_, fun obj ho => ?_⟩
  · cases objs with
    | nil => simp only [mergeAll, Option.some.injEq] at hm; rw [hm]; exact h.sat
    | cons o os => exact fun c hc => h.sat c ((h1 o (hp o (by simp)).1.layers).constraints c hc)
  · have hf := h1 obj (hp obj ho).1.layers
    have hall : AllOk ρ (W obj) (st'.maps obj) := by
      intro i hi
      rcases List.mem_append.1 hi with hi | hi
      · exact (h.maps obj).base i hi (by rw [hf.layers]; simp [Untouched])
      · rw [List.mem_singleton.1 hi]; exact (h.maps obj).unknown
    exact ⟨fun i hi => hf.allOk hall i (List.mem_append_left _ hi), h2 obj ho ρ (W obj) h.sat hall⟩

/-- A path that read the key of symbol 0. -/
def mergeLeftPath : State := ⟨[], 8, fun o => ⟨[.lift (.lit true)], if o = 0 then [⟨.var 0, .var 7, .var 7⟩] else [], .var 4, ⟨.var 2, .var 3, .var 2⟩, []⟩⟩

/-- Another path, which read the key of symbol 1 instead. -/
def mergeRightPath : Nat → MapS := fun o => ⟨[.lift (.lit true)], if o = 0 then [⟨.var 1, .var 6, .var 6⟩] else [], .var 4, ⟨.var 2, .var 3, .var 2⟩, []⟩

def mergeConditions : List B := [.not (.var 5), .var 5]

/-- The only key present is 3, with the value 9. -/
def mergeWorld : Nat → Contents := fun _ k => if k = 3 then (9, true) else (0, false)

def mergeEnv (other : Bool) : Env :=
  ⟨fun i => if i = 0 then 3 else if i = 1 then 3 else if i = 2 then 100 else if i = 4 then 1 else if i = 6 then 9 else if i = 7 then (if other then 0 else 9) else 0,
   fun i => if i = 5 then other else if i = 6 then true else if i = 7 then !other else false⟩

theorem mergePlain : ∀ obj ∈ [0], Plain mergeLeftPath [mergeRightPath] mergeConditions obj := by
  intro obj ho
  rw [List.mem_singleton.1 ho]
  refine ⟨rfl, by simp [mergeRightPath], fun s hs => ?_⟩
  simp only [Verif.Tool.GhostMap.sides, mergeRightPath, mergeConditions, List.map_cons, List.map_nil, List.tail_cons, List.zip_cons_cons, List.zip_nil_left, List.mem_singleton] at hs
  subst hs
  refine ⟨by simp [B.within, mergeLeftPath], by simp [Item.within, E.within, B.within, mergeLeftPath], fun h => ?_⟩
  simp [isEmpty, mergeLeftPath, E.symbolic] at h

theorem mergeBelow : ∀ o, MapBelow 8 (mergeLeftPath.maps o) := by
  intro o
  refine ⟨?_, by simp [mergeLeftPath, E.within], by simp [mergeLeftPath, Item.within, E.within, B.within], by simp [mergeLeftPath], by simp [mergeLeftPath, IB.pure, B.within]⟩
  intro i hi
  simp only [mergeLeftPath] at hi
  split at hi
  · rw [List.mem_singleton.1 hi]; simp [Item.within, E.within, B.within]
  · simp at hi

theorem mergeLength (b : Bool) : LenOk (mergeEnv b) (mergeWorld 0) (.var 4) := by
  refine ⟨{3}, fun k => ?_, by simp [E.den, mergeEnv], by simp⟩
  by_cases h : k = 3 <;> simp [mergeWorld, h]

/-- The path of the merging state meets the hypotheses of `C26_own_path_partial`. -/
example : ∃ st' ρ', mergeAll 1 [mergeRightPath] mergeConditions mergeLeftPath [0] = some st' ∧ Agree 8 (mergeEnv false) ρ' ∧ Describes st' mergeWorld ρ' := by
  refine C26_own_path_partial (st := mergeLeftPath) (ρ := mergeEnv false) 0 ⟨by simp [sat, mergeLeftPath], by simp [mergeLeftPath], fun o => ⟨mergeBelow o, trivial, by simp [mergeLeftPath], ?_, by simp [mergeLeftPath, Untouched], ?_,
    by simp [mergeLeftPath], ?_, fun d => ?_⟩⟩ [mergeRightPath] mergeConditions [0] mergePlain (by simp [mergeConditions, B.den, mergeEnv])
  · intro i hi _
    simp only [mergeLeftPath] at hi
    split at hi
    · rw [List.mem_singleton.1 hi]; simp [Item.ok, E.den, B.den, mergeEnv, mergeWorld]
    · simp at hi
  · simp [mergeLeftPath, Item.ok, E.den, B.den, mergeEnv, mergeWorld]
  · intro inv hi k _
    simp only [mergeLeftPath, List.mem_singleton] at hi
    subst hi; rfl
  · simp only [mergeLeftPath, List.drop_nil]; exact mergeLength false

/-- The other path meets the hypotheses of `C26_other_path_partial`. -/
example : ∃ st' ρ', mergeAll 1 [mergeRightPath] mergeConditions mergeLeftPath [0] = some st' ∧ Agree 7 (mergeEnv true) ρ' ∧ Describes st' mergeWorld ρ' := by
  refine C26_other_path_partial 0 7 ⟨by simp [sat, mergeLeftPath], by simp [mergeLeftPath], by simp [mergeLeftPath], fun _ => rfl, mergeBelow, fun o => ?_, fun o => ?_, fun o => ?_, ?_, ?_⟩
    [mergeRightPath] mergeConditions [0] mergePlain ?_ ?_
  · simp [mergeLeftPath, Item.within, E.within, B.within, Item.ok, E.den, B.den, mergeEnv, mergeWorld]
  · exact ⟨by simp [mergeLeftPath, E.within], mergeLength true⟩
  · simp [mergeLeftPath, IB.pure, B.within, IB.sem, B.den]
  · intro o i hi
    simp only [mergeLeftPath] at hi
    split at hi
    · rw [List.mem_singleton.1 hi]; exact .inr ⟨7, .var 0, by omega, rfl, by simp [E.within]⟩
    · simp at hi
  · intro o o' a key key' _ h1 h2
    simp only [mergeLeftPath] at h1 h2
    split at h1 <;> split at h2 <;> simp_all
  · intro obj ho s hs
    rw [List.mem_singleton.1 ho] at hs
    simp only [mergeRightPath, mergeConditions, List.map_cons, List.map_nil, List.tail_cons, List.zip_cons_cons, List.zip_nil_left, List.mem_singleton] at hs
    subst hs
    simp [Item.within, E.within, B.within]
  · intro obj ho s hs _
    rw [List.mem_singleton.1 ho] at hs ⊢
    simp only [mergeRightPath, mergeConditions, List.map_cons, List.map_nil, List.tail_cons, List.zip_cons_cons, List.zip_nil_left, List.mem_singleton] at hs
    subst hs
    simp [Item.ok, E.den, B.den, mergeEnv, mergeWorld]

/-- And of `C26_exact_partial`. -/
example {st' : State} (hm : mergeAll 1 [mergeRightPath] mergeConditions mergeLeftPath [0] = some st') {W : Nat → Contents} {ρ : Env} (h : Describes st' W ρ)
    (hc : ρ.bl 5 = true) : W 0 (ρ.bv 1) = (ρ.bv 6, ρ.bl 6) := by
  have := ((C26_exact_partial 0 [mergeRightPath] mergeConditions [0] (fun o ho => ⟨mergePlain o ho, mergeBelow o⟩) hm h).2 0 (by simp)).2
    ([⟨.var 1, .var 6, .var 6⟩], .var 5) (by simp [mergeRightPath, mergeConditions]) hc _ (List.mem_singleton.2 rfl)
  exact this

/-- A state where the key of symbol 0 has been read. -/
def mergeShared : State := ⟨[], 7, fun _ => ⟨[.lift (.lit true)], [⟨.var 0, .var 5, .var 5⟩], .var 4, ⟨.var 2, .var 3, .var 2⟩, []⟩⟩

theorem mergeShared_set (v : Nat) : ∃ st, set 1 mergeShared 0 (.var 0) (.const v) = some st ∧ (st.maps 0) =
    ⟨[.lift (.lit true)], [⟨.var 0, .var 5, .var 5⟩], .var 4, ⟨.var 2, .var 3, .var 2⟩,
      [⟨[⟨.var 0, .const v, .lit true⟩], (E.var 4).add (.ite (.var 5) (.const 0) (.const 1)), (0, [])⟩]⟩ := by
  have hg : get 1 mergeShared 0 none (.var 0) none (.lit true) = some ((.var 5, .var 5), mergeShared.setMap 0 (mergeShared.maps 0)) := by
    rw [get_hit 0 mergeShared 0 none (.var 0) none (.lit true) ⟨.var 0, .var 5, .var 5⟩ (by simp [mergeShared, lengthOf, isEmpty, E.symbolic])
      (exactMatch_hit (by simp [mergeShared, known]))]
    rfl
  have hp : constantOr (mergeShared.setMap 0 (mergeShared.maps 0)).constraints (.var 5) = some (.var 5) := by
    have h1 : definitely (mergeShared.setMap 0 (mergeShared.maps 0)).constraints (.var 5) = false :=
      definitely_false (ρ := ⟨fun _ => 0, fun _ => false⟩) (by simp [sat, mergeShared, State.setMap]) rfl
    have h2 : definitely (mergeShared.setMap 0 (mergeShared.maps 0)).constraints (.not (.var 5)) = false :=
      definitely_false (ρ := ⟨fun _ => 0, fun _ => true⟩) (by simp [sat, mergeShared, State.setMap]) rfl
    simp [constantOr, h1, h2]
  refine ⟨_, set_of_get hg hp, ?_⟩
  rw [setMap_same, setMap_same]
  rfl

/-- What the merge of the two makes of the map. -/
def mergedMap : MapS := ⟨[.lift (.lit true)], [⟨.var 0, .var 5, .var 5⟩], .var 4, ⟨.var 2, .var 3, .var 2⟩,
  [⟨[⟨.ite (.var 6) (.var 0) (.var 0), .ite (.var 6) (.const 6) (.const 5), .ite (.var 6) (.lit true) (.lit true)⟩],
    (E.var 4).add (.ite (.var 5) (.const 0) (.const 1)), (0, [])⟩]⟩

theorem mergedMap_read {st : State} (h : st.maps 0 = mergedMap) : ∃ r st', get 1 st 0 none (.var 0) none (.lit true) = some (r, st') ∧
    ∀ ρ, r.2.den ρ = true ∧ ((ρ.bl 6) = true → r.1.den ρ = 6) ∧ (ρ.bl 6 = false → r.1.den ρ = 5) := by
  have hk : (known mergedMap.base mergedMap.layers).1 = [⟨.ite (.var 6) (.var 0) (.var 0), .ite (.var 6) (.const 6) (.const 5), .ite (.var 6) (.lit true) (.lit true)⟩,
      ⟨.var 0, .ite ((E.var 0).eq (.ite (.var 6) (.var 0) (.var 0))) (.ite (.var 6) (.const 6) (.const 5)) (.var 5),
        .ite ((E.var 0).eq (.ite (.var 6) (.var 0) (.var 0))) (.ite (.var 6) (.lit true) (.lit true)) (.var 5)⟩] := by
    simp [mergedMap, known, transform, E.same, E.symbolic, B.symbolic, iteE, iteB]
  refine ⟨_, _, get_hit 0 st 0 none (.var 0) none (.lit true) ⟨.var 0, .ite ((E.var 0).eq (.ite (.var 6) (.var 0) (.var 0))) (.ite (.var 6) (.const 6) (.const 5)) (.var 5),
    .ite ((E.var 0).eq (.ite (.var 6) (.var 0) (.var 0))) (.ite (.var 6) (.lit true) (.lit true)) (.var 5)⟩ ?_ (exactMatch_hit ?_), fun ρ => ?_⟩
  · rw [h]; simp [skip, mergedMap, lengthOf, isEmpty, E.symbolic, E.add]
  · rw [h]
    simp only [skip, List.drop_zero, hk]
    simp [E.same, E.symbolic]
  · cases hb : ρ.bl 6 <;> simp [B.den, E.den, E.eq, hb]

/-- C26 is false of updated maps: after reading the same key, one path sets it to 5 and another to 6. The maps can be merged, and the merged map
says 6 under the condition of the first path and 5 under that of the second. -/
theorem C26_layers_swapped : ∃ (st sa sb st' st'' : State) (r : E × B) (mc : B), set 1 st 0 (.var 0) (.const 5) = some sa ∧ set 1 st 0 (.var 0) (.const 6) = some sb ∧
    canMerge (sa.maps 0) (sb.maps 0) (sa.maps 0).layers (sb.maps 0).layers = true ∧ merge 1 sa 0 [sb.maps 0] [mc, .not mc] = some st' ∧
    get 1 st' 0 none (.var 0) none (.lit true) = some (r, st'') ∧ ∀ ρ, r.2.den ρ = true ∧ (mc.den ρ = true → r.1.den ρ = 6) ∧ (mc.den ρ = false → r.1.den ρ = 5) := by
  obtain ⟨sa, ha, hma⟩ := mergeShared_set 5
  obtain ⟨sb, hb, hmb⟩ := mergeShared_set 6
  have hcan : canMerge (sa.maps 0) (sb.maps 0) (sa.maps 0).layers (sb.maps 0).layers = true := by
    rw [hma, hmb]
    simp only [canMerge, E.same_refl, Item.same_refl, sameMaps, sameItems, Bool.and_true, Bool.true_and, decide_true, Bool.or_eq_true, Bool.and_eq_true, List.length_singleton,
      beq_self_eq_true, decide_eq_true_eq, true_or, true_and]
    right
    exact Nat.le_trans (List.length_filter_le _ _) (by simp)
  have hmerge : merge 1 sa 0 [sb.maps 0] [.var 6, .not (.var 6)] = some (sa.setMap 0 mergedMap) := by
    unfold merge
    simp only [hma, hmb, List.map_cons, List.map_nil]
    unfold mergeFrom
    rw [if_neg (by simp [sameMaps, hma, sameItems, Item.same])]
    simp only [hma, belows, List.map_cons, List.map_nil, List.tail_cons]
    unfold mergeFrom
    rw [if_pos (by simp [sameMaps, State.setMap, sameItems, Item.same_refl, E.same_refl])]
    simp [mergedMap, tops, mergeItem, iteE, iteB]
  obtain ⟨r, st'', hg, hr⟩ := mergedMap_read (st := sa.setMap 0 mergedMap) (setMap_same _ _ _)
  exact ⟨mergeShared, sa, sb, _, st'', r, .var 6, ha, hb, hcan, hmerge, hg, hr⟩

end Verif.Props
