/- The expiring table behaves like the expiring set of the specifications. -/
import Verif.Nf.TableProofs
import Verif.Spec.Expiring

set_option autoImplicit false

namespace Verif.Nf
open Verif.IndexPool Verif.IndexPoolSpec Verif.Expiring

variable {K : Type} [DecidableEq K]

theorem fresh_eq_young (exp now v : Nat) : fresh exp now v = young now exp v := by
  unfold fresh young
  by_cases h : now < exp
  · simp [h]; omega
  · simp [h]

theorem fresh_anti {exp now now' v : Nat} (h : now ≤ now') (hf : fresh exp now' v = true) : fresh exp now v = true := by
  simp only [fresh, decide_eq_true_eq] at *; omega

theorem get_filter {m : GMap K Nat} (hd : m.Distinct) (p : Nat → Bool) (k : K) :
    GMap.get (m.filter fun x => p x.2) k = (m.get k).filter p := by
  induction m with
  | nil => rfl
  | cons x t ih =>
    obtain ⟨k', v⟩ := x
    simp only [GMap.Distinct, List.map_cons, List.nodup_cons] at hd
    have ih := ih hd.2
    by_cases hk : k' = k
    · subst hk
      cases hp : p v with
      | true => simp [hp, GMap.get, Option.filter]
      | false =>
        have : GMap.get t k' = none := (GMap.get_eq_none_iff t k').2 hd.1
        simp only [hp, Bool.false_eq_true, not_false_eq_true, List.filter_cons_of_neg, GMap.get, ↓reduceIte,
          Option.filter]
        rw [ih, this]; rfl
    · cases hp : p v with
      | true => simp [hp, GMap.get, hk, ih]
      | false => simp [hp, GMap.get, hk, ih]

omit [DecidableEq K] in
theorem distinct_filter {m : GMap K Nat} (hd : m.Distinct) (p : K × Nat → Bool) : GMap.Distinct (m.filter p) := by
  unfold GMap.Distinct at *
  exact List.Nodup.sublist (List.Sublist.map _ List.filter_sublist) hd

/-- The live entry of a key. -/
def liveLook (exp now : Nat) (tb : Table K) (k : K) : Option Nat :=
  ((look tb k).map Prod.snd).filter (fresh exp now)

/-- The table represents the expiring set from time `now` on. -/
structure Rel (size exp now : Nat) (tb : Table K) (s : GMap K Nat) : Prop where
  inv : Inv size exp tb
  dist : s.Distinct
  same : ∀ k, (live exp now s).get k = liveLook exp now tb k

theorem get_live {exp now : Nat} {s : GMap K Nat} (hd : s.Distinct) (k : K) :
    (live exp now s).get k = (s.get k).filter (fresh exp now) := get_filter hd (fresh exp now) k

theorem filter_filter_fresh {exp now now' : Nat} (h : now ≤ now') (o : Option Nat) :
    (o.filter (fresh exp now)).filter (fresh exp now') = o.filter (fresh exp now') := by
  cases o with
  | none => rfl
  | some v =>
    cases h1 : fresh exp now v with
    | true => simp [Option.filter, h1]
    | false =>
      have : fresh exp now' v = false := by
        cases h2 : fresh exp now' v with
        | false => rfl
        | true => rw [fresh_anti h h2] at h1; cases h1
      simp [Option.filter, h1, this]

theorem Rel.later {size exp now now' : Nat} {tb : Table K} {s : GMap K Nat} (r : Rel size exp now tb s)
    (h : now ≤ now') : Rel size exp now' tb s := by
  refine ⟨r.inv, r.dist, fun k => ?_⟩
  have := r.same k
  rw [get_live r.dist] at this ⊢
  rw [← filter_filter_fresh h (s.get k), this, liveLook, filter_filter_fresh h]
  rfl

theorem rel_alloc (size exp : Nat) (zero : K) :
    ∃ tb, Table.alloc zero size exp = some tb ∧ Rel size exp 0 tb [] := by
  obtain ⟨tb, h1, h2, h3⟩ := inv_alloc zero size exp
  exact ⟨tb, h1, h2, GMap.distinct_nil, fun k => by simp [liveLook, h3, live, GMap.get]⟩

theorem mem_eq {size exp now : Nat} {tb : Table K} {s : GMap K Nat} (r : Rel size exp now tb s) (k : K) :
    Expiring.mem exp now s k = (liveLook exp now tb k).isSome := by
  rw [Expiring.mem, r.same]

theorem liveLook_some {exp now : Nat} {tb : Table K} {k : K} {v : Nat} :
    liveLook exp now tb k = some v ↔ ∃ i, look tb k = some (i, v) ∧ fresh exp now v = true := by
  simp only [liveLook]
  cases h : look tb k with
  | none => simp
  | some x =>
    obtain ⟨i, u⟩ := x
    cases hf : fresh exp now u with
    | true =>
      simp only [Option.map_some, Option.filter, hf, ↓reduceIte, Option.some.injEq, Prod.mk.injEq]
      constructor
      · rintro rfl; exact ⟨i, ⟨rfl, rfl⟩, hf⟩
      · rintro ⟨_, ⟨_, h⟩, _⟩; exact h
    | false =>
      simp only [Option.map_some, Option.filter, hf, Bool.false_eq_true, ↓reduceIte, Option.some.injEq, Prod.mk.injEq,
        reduceCtorEq, false_iff, not_exists, not_and, and_imp]
      rintro _ rfl rfl; rw [hf]; simp

/-- All indices in use by live members: the set is full. -/
theorem full_of_all {size exp now : Nat} {tb : Table K} {s : GMap K Nat} (r : Rel size exp now tb s)
    (h : ∀ i < size, ∃ k v, look tb k = some (i, v) ∧ fresh exp now v = true) :
    size ≤ (live exp now s).length := by
  have hkeys : tb.keys.Nodup := by
    rw [List.nodup_iff_injective_get]
    intro a b hab
    have ha : a.1 < size := by rw [← r.inv.klen]; exact a.2
    have hb : b.1 < size := by rw [← r.inv.klen]; exact b.2
    obtain ⟨ka, va, h1, _⟩ := h a.1 ha
    obtain ⟨kb, vb, h2, _⟩ := h b.1 hb
    have e1 := (look_key r.inv h1).1
    have e2 := (look_key r.inv h2).1
    rw [List.getElem?_eq_getElem a.2] at e1
    rw [List.getElem?_eq_getElem b.2] at e2
    simp only [List.get_eq_getElem] at hab
    have : ka = kb := by cases e1; cases e2; exact hab
    subst this
    rw [h1] at h2
    simp only [Option.some.injEq, Prod.mk.injEq] at h2
    exact Fin.ext h2.1
  have hsub : tb.keys ⊆ (live exp now s).map Prod.fst := by
    intro k hk
    obtain ⟨i, hi, rfl⟩ := List.mem_iff_getElem.1 hk
    obtain ⟨k', v, h1, h2⟩ := h i (by rw [← r.inv.klen]; exact hi)
    have e1 := (look_key r.inv h1).1
    rw [List.getElem?_eq_getElem hi] at e1
    have e : tb.keys[i] = k' := Option.some.inj e1
    rw [e]
    have : (live exp now s).get k' = some v := by rw [r.same]; exact liveLook_some.2 ⟨i, h1, h2⟩
    exact List.mem_map.2 ⟨_, GMap.get_some_mem this, rfl⟩
  have := (List.subperm_of_subset hkeys hsub).length_le
  simpa [r.inv.klen] using this

/-- Some index without a live owner: the set is not full. -/
theorem room_of_some {size exp now : Nat} {tb : Table K} {s : GMap K Nat} (r : Rel size exp now tb s)
    {i : Nat} (hi : i < size) (h : ∀ k v, look tb k = some (i, v) → fresh exp now v = false) :
    (live exp now s).length < size := by
  have hd : GMap.Distinct (live exp now s) := distinct_filter r.dist _
  have hlook : ∀ k ∈ (live exp now s).map Prod.fst, ∃ j v, look tb k = some (j, v) ∧ fresh exp now v = true := by
    intro k hk
    obtain ⟨⟨k', v⟩, h1, rfl⟩ := List.mem_map.1 hk
    have h2 := GMap.mem_get hd h1
    rw [r.same, liveLook_some] at h2
    obtain ⟨j, h3, h4⟩ := h2
    exact ⟨j, v, h3, h4⟩
  let idx : K → Nat := fun k => ((look tb k).map Prod.fst).getD 0
  have hnd : (i :: ((live exp now s).map Prod.fst).map idx).Nodup := by
    rw [List.nodup_cons]
    constructor
    · intro hm
      obtain ⟨k, hk, he⟩ := List.mem_map.1 hm
      obtain ⟨j, v, h1, h2⟩ := hlook k hk
      simp only [idx, h1, Option.map_some, Option.getD_some] at he
      subst he
      rw [h k v h1] at h2; cases h2
    · apply List.Nodup.map_on _ hd
      intro k hk k' hk' he
      obtain ⟨j, v, h1, h2⟩ := hlook k hk
      obtain ⟨j', v', h1', h2'⟩ := hlook k' hk'
      simp only [idx, h1, h1', Option.map_some, Option.getD_some] at he
      subst he
      exact look_inj r.inv h1 h1'
  have hsub : (i :: ((live exp now s).map Prod.fst).map idx) ⊆ List.range size := by
    intro j hj
    rcases List.mem_cons.1 hj with rfl | hj
    · exact List.mem_range.2 hi
    · obtain ⟨k, hk, he⟩ := List.mem_map.1 hj
      obtain ⟨j', v, h1, h2⟩ := hlook k hk
      simp only [idx, h1, Option.map_some, Option.getD_some] at he
      subst he
      exact List.mem_range.2 (look_key r.inv h1).2
  have := (List.subperm_of_subset hnd hsub).length_le
  simp at this
  omega

theorem rel_touch {size exp now : Nat} {tb tb' : Table K} {s : GMap K Nat} (r : Rel size exp now tb s) (k : K)
    (inv' : Inv size exp tb')
    (h : ∀ k', liveLook exp now tb' k' = if k' = k then some now else liveLook exp now tb k') :
    Rel size exp now tb' (Expiring.touch exp now s k) := by
  have hd : GMap.Distinct (live exp now s) := distinct_filter r.dist _
  refine ⟨inv', GMap.distinct_set hd _ _, fun k' => ?_⟩
  rw [Expiring.touch, get_live (GMap.distinct_set hd _ _), GMap.get_set, h, r.same]
  by_cases hk : k = k'
  · subst hk; simp [Option.filter, fresh]
  · simp only [hk, Ne.symm hk, ↓reduceIte, liveLook, filter_filter_fresh (le_refl _)]

theorem rel_live {size exp now : Nat} {tb tb' : Table K} {s : GMap K Nat} (r : Rel size exp now tb s)
    (inv' : Inv size exp tb') (h : ∀ k', liveLook exp now tb' k' = liveLook exp now tb k') :
    Rel size exp now tb' (live exp now s) := by
  have hd : GMap.Distinct (live exp now s) := distinct_filter r.dist _
  refine ⟨inv', hd, fun k' => ?_⟩
  rw [get_live hd, h, r.same, liveLook, filter_filter_fresh (le_refl _)]

theorem fresh_self (exp now : Nat) : fresh exp now now = true := by simp [fresh]

/-- Refreshing a key of the table, expired or not, is `learn`. -/
theorem refresh_learn {size exp now : Nat} {tb : Table K} {s : GMap K Nat} (r : Rel size exp now tb s)
    (hn : now < timeMax) {k : K} {i : Nat} (hg : tb.map.get k = some i) :
    ∃ tb', tb.refresh now i = some tb' ∧ Rel size exp now tb' (Expiring.learn size exp now s k) ∧
      (∀ k', look tb' k' = if k' = k then some (i, now) else look tb k') := by
  obtain ⟨t0, _, hl⟩ := look_of_get r.inv hg
  obtain ⟨tb', h1, h2, _, _, h3⟩ := refresh_spec r.inv hl hn
  refine ⟨tb', h1, ?_, h3⟩
  have hc : Expiring.mem exp now s k ∨ (live exp now s).length < size := by
    rw [mem_eq r]
    cases hf : fresh exp now t0 with
    | true => left; simp [liveLook, hl, Option.filter, hf]
    | false =>
      right
      refine room_of_some r (look_key r.inv hl).2 (fun k' v h => ?_)
      have := look_inj r.inv h hl
      subst this
      rw [hl] at h
      simp only [Option.some.injEq, Prod.mk.injEq, true_and] at h
      rw [← h]; exact hf
  rw [Expiring.learn, if_pos hc]
  refine rel_touch r k h2 (fun k' => ?_)
  simp only [liveLook, h3]
  by_cases hk : k' = k
  · simp [hk, Option.filter, fresh_self]
  · simp [hk]

/-- Inserting a key is `learn`; it fails exactly when the set is full. -/
theorem insert_learn {size exp now : Nat} {tb : Table K} {s : GMap K Nat} (r : Rel size exp now tb s)
    (hn : now < timeMax) {k : K} (hg : tb.map.get k = none) :
    ∃ tb' o, tb.insert now k = some (tb', o) ∧ Rel size exp now tb' (Expiring.learn size exp now s k) ∧
      o.isSome = decide (Expiring.mem exp now s k ∨ (live exp now s).length < size) ∧
      (∀ i, o = some i → look tb' k = some (i, now) ∧ i < size ∧
        (∀ k' v, look tb k' = some (i, v) → fresh exp now v = false)) ∧
      (∀ k', k' ≠ k → liveLook exp now tb' k' = liveLook exp now tb k') ∧
      (∀ k' j v, k' ≠ k → look tb' k' = some (j, v) → look tb k' = some (j, v)) ∧
      (∀ k' j v, look tb k' = some (j, v) → fresh exp now v = true → look tb' k' = some (j, v)) := by
  have hl : look tb k = none := look_none_of_get hg
  have hm : Expiring.mem exp now s k = false := by rw [mem_eq r]; simp [liveLook, hl]
  obtain ⟨tb', o, h1, h2, h3⟩ := insert_spec r.inv hl hn
  refine ⟨tb', o, h1, ?_⟩
  rcases h3 with ⟨rfl, h4, h5⟩ | ⟨i, rfl, hi, h4, h5, h6⟩
  · have hfull := full_of_all r (fun i hi => by
      obtain ⟨k', v, a, b⟩ := h5 i hi
      exact ⟨k', v, a, by rw [fresh_eq_young]; exact b⟩)
    have hnc : ¬ (Expiring.mem exp now s k = true ∨ (live exp now s).length < size) := by rw [hm]; simp; omega
    refine ⟨?_, by simp only [hnc, decide_false]; rfl, by simp, fun k' _ => by simp [liveLook, h4],
      fun k' j v _ h => by rw [h4] at h; exact h, fun k' j v h _ => by rw [h4]; exact h⟩
    rw [Expiring.learn, if_neg hnc]
    exact rel_live r h2 (fun k' => by simp [liveLook, h4])
  · have h4' : ∀ k' v, look tb k' = some (i, v) → fresh exp now v = false := by
      intro k' v h; rw [fresh_eq_young]; exact h4 k' v h
    have hroom := room_of_some r hi h4'
    have hc : Expiring.mem exp now s k = true ∨ (live exp now s).length < size := .inr hroom
    have hother : ∀ k', k' ≠ k → liveLook exp now tb' k' = liveLook exp now tb k' := by
      intro k' hk
      simp only [liveLook, h6 k' hk]
      cases hlk : look tb k' with
      | none => rfl
      | some x =>
        obtain ⟨j, v⟩ := x
        by_cases hj : j = i
        · subst hj
          simp [Option.filter, h4' k' v hlk]
        · simp [Option.filter, hj]
    refine ⟨?_, by simp only [hc, decide_true]; rfl, ?_, hother, ?_, ?_⟩
    · rw [Expiring.learn, if_pos hc]
      refine rel_touch r k h2 (fun k' => ?_)
      by_cases hk : k' = k
      · subst hk; simp [liveLook, h5, Option.filter, fresh_self]
      · rw [if_neg hk]; exact hother k' hk
    · rintro j ⟨⟩; exact ⟨h5, hi, h4'⟩
    · intro k' j v hk h
      rw [h6 k' hk] at h
      cases hlk : look tb k' with
      | none => rw [hlk] at h; cases h
      | some x =>
        obtain ⟨a, b⟩ := x
        rw [hlk] at h
        by_cases ha : a = i
        · subst ha; simp [Option.filter] at h
        · simpa [Option.filter, ha] using h
    · intro k' j v h hf
      have hk : k' ≠ k := by rintro rfl; rw [hl] at h; cases h
      have hj : j ≠ i := by
        rintro rfl; rw [h4' k' v h] at hf; cases hf
      rw [h6 k' hk, h]; simp [Option.filter, hj]

end Verif.Nf
