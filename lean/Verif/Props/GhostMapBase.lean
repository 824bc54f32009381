/- Lemmas about ghost maps used by the properties C19 to C26. -/
import Verif.Tool.GhostMapSem
import Mathlib.Data.Finset.Card
import Mathlib.Data.Finset.Image

set_option autoImplicit false

namespace Verif.Tool.GhostMap

theorem Agree.refl (n : Nat) (ρ : Env) : Agree n ρ ρ := fun _ _ => ⟨rfl, rfl⟩
theorem Agree.trans {n m : Nat} {a b c : Env} (h : Agree n a b) (h' : Agree m b c) (hn : n ≤ m) : Agree n a c :=
  fun i hi => ⟨(h i hi).1.trans (h' i (by omega)).1, (h i hi).2.trans (h' i (by omega)).2⟩

mutual
theorem E.den_congr {n : Nat} {ρ ρ' : Env} (h : Agree n ρ ρ') : ∀ e : E, e.within n → e.den ρ = e.den ρ'
  | .const _, _ => rfl
  | .var i, hb => (h i hb).1
  | .op1 f a, hb => by simp only [E.den]; rw [E.den_congr h a hb]
  | .op2 f a b, hb => by simp only [E.den]; rw [E.den_congr h a hb.1, E.den_congr h b hb.2]
  | .ite c t e, hb => by simp only [E.den]; rw [B.den_congr h c hb.1, E.den_congr h t hb.2.1, E.den_congr h e hb.2.2]
theorem B.den_congr {n : Nat} {ρ ρ' : Env} (h : Agree n ρ ρ') : ∀ e : B, e.within n → e.den ρ = e.den ρ'
  | .lit _, _ => rfl
  | .var i, hb => (h i hb).2
  | .not a, hb => by simp only [B.den]; rw [B.den_congr h a hb]
  | .and a b, hb => by simp only [B.den]; rw [B.den_congr h a hb.1, B.den_congr h b hb.2]
  | .or a b, hb => by simp only [B.den]; rw [B.den_congr h a hb.1, B.den_congr h b hb.2]
  | .iff a b, hb => by simp only [B.den]; rw [B.den_congr h a hb.1, B.den_congr h b hb.2]
  | .ite c t e, hb => by simp only [B.den]; rw [B.den_congr h c hb.1, B.den_congr h t hb.2.1, B.den_congr h e hb.2.2]
  | .rel r a b, hb => by simp only [B.den]; rw [E.den_congr h a hb.1, E.den_congr h b hb.2]
end

mutual
theorem E.within_mono {n m : Nat} (h : n ≤ m) : ∀ e : E, e.within n → e.within m
  | .const _, _ => trivial
  | .var _, hb => Nat.lt_of_lt_of_le hb h
  | .op1 _ a, hb => E.within_mono h a hb
  | .op2 _ a b, hb => ⟨E.within_mono h a hb.1, E.within_mono h b hb.2⟩
  | .ite c t e, hb => ⟨B.within_mono h c hb.1, E.within_mono h t hb.2.1, E.within_mono h e hb.2.2⟩
theorem B.within_mono {n m : Nat} (h : n ≤ m) : ∀ e : B, e.within n → e.within m
  | .lit _, _ => trivial
  | .var _, hb => Nat.lt_of_lt_of_le hb h
  | .not a, hb => B.within_mono h a hb
  | .and a b, hb => ⟨B.within_mono h a hb.1, B.within_mono h b hb.2⟩
  | .or a b, hb => ⟨B.within_mono h a hb.1, B.within_mono h b hb.2⟩
  | .iff a b, hb => ⟨B.within_mono h a hb.1, B.within_mono h b hb.2⟩
  | .ite c t e, hb => ⟨B.within_mono h c hb.1, B.within_mono h t hb.2.1, B.within_mono h e hb.2.2⟩
  | .rel _ a b, hb => ⟨E.within_mono h a hb.1, E.within_mono h b hb.2⟩
end

mutual
theorem IE.pure_mono {n m : Nat} (h : n ≤ m) : ∀ e : IE, e.pure n → e.pure m
  | .key, _ => trivial
  | .value, _ => trivial
  | .lift e, hb => E.within_mono h e hb
  | .op1 _ a, hb => IE.pure_mono h a hb
  | .op2 _ a b, hb => ⟨IE.pure_mono h a hb.1, IE.pure_mono h b hb.2⟩
  | .ite c t e, hb => ⟨IB.pure_mono h c hb.1, IE.pure_mono h t hb.2.1, IE.pure_mono h e hb.2.2⟩
theorem IB.pure_mono {n m : Nat} (h : n ≤ m) : ∀ e : IB, e.pure n → e.pure m
  | .present, _ => trivial
  | .lift b, hb => B.within_mono h b hb
  | .not a, hb => IB.pure_mono h a hb
  | .and a b, hb => ⟨IB.pure_mono h a hb.1, IB.pure_mono h b hb.2⟩
  | .or a b, hb => ⟨IB.pure_mono h a hb.1, IB.pure_mono h b hb.2⟩
  | .iff a b, hb => ⟨IB.pure_mono h a hb.1, IB.pure_mono h b hb.2⟩
  | .rel _ a b, hb => ⟨IE.pure_mono h a hb.1, IE.pure_mono h b hb.2⟩
end

mutual
theorem IE.sem_congr {n : Nat} {ρ ρ' : Env} (h : Agree n ρ ρ') (k v : Nat) (p : Bool) :
    ∀ e : IE, e.pure n → e.sem noMaps ρ k v p = e.sem noMaps ρ' k v p
  | .key, _ => rfl
  | .value, _ => rfl
  | .lift e, hb => E.den_congr h e hb
  | .op1 f a, hb => by simp only [IE.sem]; rw [IE.sem_congr h k v p a hb]
  | .op2 f a b, hb => by simp only [IE.sem]; rw [IE.sem_congr h k v p a hb.1, IE.sem_congr h k v p b hb.2]
  | .ite c t e, hb => by
    simp only [IE.sem]; rw [IB.sem_congr h k v p c hb.1, IE.sem_congr h k v p t hb.2.1, IE.sem_congr h k v p e hb.2.2]
theorem IB.sem_congr {n : Nat} {ρ ρ' : Env} (h : Agree n ρ ρ') (k v : Nat) (p : Bool) :
    ∀ e : IB, e.pure n → e.sem noMaps ρ k v p = e.sem noMaps ρ' k v p
  | .present, _ => rfl
  | .lift b, hb => B.den_congr h b hb
  | .not a, hb => by simp only [IB.sem]; rw [IB.sem_congr h k v p a hb]
  | .and a b, hb => by simp only [IB.sem]; rw [IB.sem_congr h k v p a hb.1, IB.sem_congr h k v p b hb.2]
  | .or a b, hb => by simp only [IB.sem]; rw [IB.sem_congr h k v p a hb.1, IB.sem_congr h k v p b hb.2]
  | .iff a b, hb => by simp only [IB.sem]; rw [IB.sem_congr h k v p a hb.1, IB.sem_congr h k v p b hb.2]
  | .rel r a b, hb => by simp only [IB.sem]; rw [IE.sem_congr h k v p a hb.1, IE.sem_congr h k v p b hb.2]
end

mutual
/-- Evaluating a pure expression changes nothing and has the right meaning, in every assignment. -/
theorem evalE_pure (g : GetFn) (item : Item) (cond : B) (st : State) {n m : Nat} (hi : item.within m) (hnm : n ≤ m) :
    ∀ e : IE, e.pure n → ∃ r : E, evalE g item cond st e = some (r, st) ∧ r.within m ∧
      ∀ ρ, r.den ρ = e.sem noMaps ρ (item.key.den ρ) (item.value.den ρ) (item.present.den ρ)
  | .key, _ => ⟨_, rfl, hi.1, fun _ => rfl⟩
  | .value, _ => ⟨_, rfl, hi.2.1, fun _ => rfl⟩
  | .lift e, hb => ⟨_, rfl, E.within_mono hnm e hb, fun _ => rfl⟩
  | .op1 f a, hb => by
    obtain ⟨r, h1, h2, h3⟩ := evalE_pure g item cond st hi hnm a hb
    exact ⟨.op1 f r, by simp [evalE, h1], h2, fun ρ => by simp [E.den, IE.sem, h3 ρ]⟩
  | .op2 f a b, hb => by
    obtain ⟨r, h1, h2, h3⟩ := evalE_pure g item cond st hi hnm a hb.1
    obtain ⟨s, g1, g2, g3⟩ := evalE_pure g item cond st hi hnm b hb.2
    exact ⟨.op2 f r s, by simp [evalE, h1, g1], ⟨h2, g2⟩, fun ρ => by simp [E.den, IE.sem, h3 ρ, g3 ρ]⟩
  | .ite c t e, hb => by
    obtain ⟨q, f1, f2, f3⟩ := evalB_pure g item cond st hi hnm c hb.1
    obtain ⟨r, h1, h2, h3⟩ := evalE_pure g item cond st hi hnm t hb.2.1
    obtain ⟨s, g1, g2, g3⟩ := evalE_pure g item cond st hi hnm e hb.2.2
    exact ⟨.ite q r s, by simp [evalE, f1, h1, g1], ⟨f2, h2, g2⟩, fun ρ => by simp [E.den, IE.sem, f3 ρ, h3 ρ, g3 ρ]⟩
theorem evalB_pure (g : GetFn) (item : Item) (cond : B) (st : State) {n m : Nat} (hi : item.within m) (hnm : n ≤ m) :
    ∀ e : IB, e.pure n → ∃ r : B, evalB g item cond st e = some (r, st) ∧ r.within m ∧
      ∀ ρ, r.den ρ = e.sem noMaps ρ (item.key.den ρ) (item.value.den ρ) (item.present.den ρ)
  | .present, _ => ⟨_, rfl, hi.2.2, fun _ => rfl⟩
  | .lift b, hb => ⟨_, rfl, B.within_mono hnm b hb, fun _ => rfl⟩
  | .not a, hb => by
    obtain ⟨r, h1, h2, h3⟩ := evalB_pure g item cond st hi hnm a hb
    exact ⟨.not r, by simp [evalB, h1], h2, fun ρ => by simp [B.den, IB.sem, h3 ρ]⟩
  | .and a b, hb => by
    obtain ⟨r, h1, h2, h3⟩ := evalB_pure g item cond st hi hnm a hb.1
    obtain ⟨s, g1, g2, g3⟩ := evalB_pure g item cond st hi hnm b hb.2
    exact ⟨.and r s, by simp [evalB, h1, g1], ⟨h2, g2⟩, fun ρ => by simp [B.den, IB.sem, h3 ρ, g3 ρ]⟩
  | .or a b, hb => by
    obtain ⟨r, h1, h2, h3⟩ := evalB_pure g item cond st hi hnm a hb.1
    obtain ⟨s, g1, g2, g3⟩ := evalB_pure g item cond st hi hnm b hb.2
    exact ⟨.or r s, by simp [evalB, h1, g1], ⟨h2, g2⟩, fun ρ => by simp [B.den, IB.sem, h3 ρ, g3 ρ]⟩
  | .iff a b, hb => by
    obtain ⟨r, h1, h2, h3⟩ := evalB_pure g item cond st hi hnm a hb.1
    obtain ⟨s, g1, g2, g3⟩ := evalB_pure g item cond st hi hnm b hb.2
    exact ⟨.iff r s, by simp [evalB, h1, g1], ⟨h2, g2⟩, fun ρ => by simp [B.den, IB.sem, h3 ρ, g3 ρ]⟩
  | .rel f a b, hb => by
    obtain ⟨r, h1, h2, h3⟩ := evalE_pure g item cond st hi hnm a hb.1
    obtain ⟨s, g1, g2, g3⟩ := evalE_pure g item cond st hi hnm b hb.2
    exact ⟨.rel f r s, by simp [evalB, h1, g1], ⟨h2, g2⟩, fun ρ => by simp [B.den, IB.sem, h3 ρ, g3 ρ]⟩
end

/-- The invariants of a list, for an item. -/
theorem applyInvs_pure (g : GetFn) (item : Item) (cond : B) (st : State) {n m : Nat} (hi : item.within m) (hnm : n ≤ m) :
    ∀ invs : List IB, (∀ inv ∈ invs, inv.pure n) → ∃ bs, applyInvs g item cond st invs = some (bs, st) ∧ (∀ b ∈ bs, b.within m) ∧
      ∀ ρ, (∀ inv ∈ invs, inv.sem noMaps ρ (item.key.den ρ) (item.value.den ρ) (item.present.den ρ) = true) → ∀ b ∈ bs, b.den ρ = true
  | [], _ => ⟨[], rfl, by simp, by simp⟩
  | inv :: invs, h => by
    obtain ⟨r, h1, h2, h3⟩ := evalB_pure g item (.and item.present cond) st hi hnm inv (h inv (by simp))
    obtain ⟨bs, g1, g2, g3⟩ := applyInvs_pure g item cond st hi hnm invs fun i hi => h i (by simp [hi])
    refine ⟨r :: bs, by simp [applyInvs, applyInv, h1, g1], ?_, fun ρ hs b hb => ?_⟩
    · intro b hb
      rcases List.mem_cons.1 hb with rfl | hb
      · exact h2
      · exact g2 b hb
    · rcases List.mem_cons.1 hb with rfl | hb
      · rw [h3]; exact hs inv (by simp)
      · exact g3 ρ (fun i hi => hs i (by simp [hi])) b hb

theorem den_andAll (ρ : Env) : ∀ l : List B, (andAll l).den ρ = l.all fun b => b.den ρ
  | [] => rfl
  | [b] => by simp [andAll]
  | b :: c :: l => by
    show (B.and b (andAll (c :: l))).den ρ = _
    simp only [B.den, den_andAll ρ (c :: l), List.all_cons]

theorem below_andAll {n : Nat} : ∀ l : List B, (∀ b ∈ l, b.within n) → (andAll l).within n
  | [], _ => trivial
  | [b], h => h b (by simp)
  | b :: c :: l, h => ⟨h b (by simp), below_andAll (c :: l) fun x hx => h x (by simp [hx])⟩

theorem den_implies (ρ : Env) (a b : B) : (implies a b).den ρ = true ↔ (a.den ρ = true → b.den ρ = true) := by
  cases ha : a.den ρ <;> simp [implies, B.den, ha]

theorem den_eq (ρ : Env) (a b : E) : (a.eq b).den ρ = (a.den ρ == b.den ρ) := rfl

theorem definitely_sound {cs : List B} {b : B} {ρ : Env} (h : definitely cs b = true) (hs : sat cs ρ) : b.den ρ = true := by
  unfold definitely at h
  exact (@of_decide_eq_true _ (Classical.propDecidable _) h) ρ hs

mutual
/-- An expression without symbols has one value. -/
theorem E.den_closed (ρ ρ' : Env) : ∀ e : E, e.symbolic = false → e.den ρ = e.den ρ'
  | .const _, _ => rfl
  | .var _, h => by simp [E.symbolic] at h
  | .op1 f a, h => by simp only [E.den]; rw [E.den_closed ρ ρ' a h]
  | .op2 f a b, h => by
    simp only [E.symbolic, Bool.or_eq_false_iff] at h
    simp only [E.den]; rw [E.den_closed ρ ρ' a h.1, E.den_closed ρ ρ' b h.2]
  | .ite c t e, h => by
    simp only [E.symbolic, Bool.or_eq_false_iff] at h
    simp only [E.den]; rw [B.den_closed ρ ρ' c h.1.1, E.den_closed ρ ρ' t h.1.2, E.den_closed ρ ρ' e h.2]
theorem B.den_closed (ρ ρ' : Env) : ∀ e : B, e.symbolic = false → e.den ρ = e.den ρ'
  | .lit _, _ => rfl
  | .var _, h => by simp [B.symbolic] at h
  | .not a, h => by simp only [B.den]; rw [B.den_closed ρ ρ' a h]
  | .and a b, h => by
    simp only [B.symbolic, Bool.or_eq_false_iff] at h
    simp only [B.den]; rw [B.den_closed ρ ρ' a h.1, B.den_closed ρ ρ' b h.2]
  | .or a b, h => by
    simp only [B.symbolic, Bool.or_eq_false_iff] at h
    simp only [B.den]; rw [B.den_closed ρ ρ' a h.1, B.den_closed ρ ρ' b h.2]
  | .iff a b, h => by
    simp only [B.symbolic, Bool.or_eq_false_iff] at h
    simp only [B.den]; rw [B.den_closed ρ ρ' a h.1, B.den_closed ρ ρ' b h.2]
  | .ite c t e, h => by
    simp only [B.symbolic, Bool.or_eq_false_iff] at h
    simp only [B.den]; rw [B.den_closed ρ ρ' c h.1.1, B.den_closed ρ ρ' t h.1.2, B.den_closed ρ ρ' e h.2]
  | .rel r a b, h => by
    simp only [B.symbolic, Bool.or_eq_false_iff] at h
    simp only [B.den]; rw [E.den_closed ρ ρ' a h.1, E.den_closed ρ ρ' b h.2]
end

theorem E.same_sound {a b : E} (h : a.same b = true) (ρ : Env) : a.den ρ = b.den ρ := by
  unfold E.same at h
  simp only [Bool.or_eq_true, decide_eq_true_eq, Bool.and_eq_true, Bool.not_eq_true', beq_iff_eq] at h
  rcases h with rfl | ⟨⟨h1, h2⟩, h3⟩
  · rfl
  · rw [E.den_closed ρ env0 a h1, E.den_closed ρ env0 b h2, h3]

theorem E.same_refl (a : E) : a.same a = true := by simp [E.same]

/- Transformation of items by a layer. -/

theorem den_iteE (ρ : Env) (key : E) (d : E) : ∀ l : List Item,
    (iteE (l.map fun ki => (key.eq ki.key, ki.value)) d).den ρ =
      match l.find? fun i => i.key.den ρ == key.den ρ with
      | some i => i.value.den ρ
      | none => d.den ρ
  | [] => rfl
  | i :: l => by
    have ih := den_iteE ρ key d l
    show (E.ite (key.eq i.key) i.value (iteE (l.map fun ki => (key.eq ki.key, ki.value)) d)).den ρ = _
    simp only [E.den, den_eq, ih, List.find?_cons]
    by_cases h : key.den ρ = i.key.den ρ
    · simp [h]
    · have h' : (i.key.den ρ == key.den ρ) = false := by simpa using fun e => h e.symm
      have h'' : (key.den ρ == i.key.den ρ) = false := by simpa using h
      simp [h', h'']

theorem den_iteB (ρ : Env) (key : E) (d : B) : ∀ l : List Item,
    (iteB (l.map fun ki => (key.eq ki.key, ki.present)) d).den ρ =
      match l.find? fun i => i.key.den ρ == key.den ρ with
      | some i => i.present.den ρ
      | none => d.den ρ
  | [] => rfl
  | i :: l => by
    have ih := den_iteB ρ key d l
    show (B.ite (key.eq i.key) i.present (iteB (l.map fun ki => (key.eq ki.key, ki.present)) d)).den ρ = _
    simp only [B.den, den_eq, ih, List.find?_cons]
    by_cases h : key.den ρ = i.key.den ρ
    · simp [h]
    · have h' : (i.key.den ρ == key.den ρ) = false := by simpa using fun e => h e.symm
      have h'' : (key.den ρ == i.key.den ρ) = false := by simpa using h
      simp [h', h'']

theorem mem_transform {layer l : List Item} {i : Item} (h : i ∈ transform layer l) : ∃ j ∈ l, i.key = j.key ∧
    (∀ ρ, i.value.den ρ = match layer.find? fun k => k.key.den ρ == j.key.den ρ with
      | some k => k.value.den ρ
      | none => j.value.den ρ) ∧
    (∀ ρ, i.present.den ρ = match layer.find? fun k => k.key.den ρ == j.key.den ρ with
      | some k => k.present.den ρ
      | none => j.present.den ρ) := by
  simp only [transform, List.mem_map, List.mem_filter] at h
  obtain ⟨j, ⟨hj, -⟩, rfl⟩ := h
  exact ⟨j, hj, rfl, fun ρ => den_iteE ρ j.key j.value layer, fun ρ => den_iteB ρ j.key j.present layer⟩

theorem below_iteE {n : Nat} {key d : E} (hk : key.within n) (hd : d.within n) : ∀ l : List Item, (∀ i ∈ l, i.within n) →
    (iteE (l.map fun ki => (key.eq ki.key, ki.value)) d).within n
  | [], _ => hd
  | i :: l, h => ⟨⟨hk, (h i (by simp)).1⟩, (h i (by simp)).2.1, below_iteE hk hd l fun j hj => h j (by simp [hj])⟩

theorem below_iteB {n : Nat} {key : E} {d : B} (hk : key.within n) (hd : d.within n) : ∀ l : List Item, (∀ i ∈ l, i.within n) →
    (iteB (l.map fun ki => (key.eq ki.key, ki.present)) d).within n
  | [], _ => hd
  | i :: l, h => ⟨⟨hk, (h i (by simp)).1⟩, (h i (by simp)).2.2, below_iteB hk hd l fun j hj => h j (by simp [hj])⟩

theorem transform_below {n : Nat} {layer l : List Item} (hl : ∀ i ∈ layer, i.within n) (h : ∀ i ∈ l, i.within n) :
    ∀ i ∈ transform layer l, i.within n := by
  intro i hi
  simp only [transform, List.mem_map, List.mem_filter] at hi
  obtain ⟨j, ⟨hj, -⟩, rfl⟩ := hi
  exact ⟨(h j hj).1, below_iteE (h j hj).1 (h j hj).2.1 _ hl, below_iteB (h j hj).1 (h j hj).2.2 _ hl⟩

theorem transform_append (layer a b : List Item) : transform layer (a ++ b) = transform layer a ++ transform layer b := by
  simp [transform]

/- Caches. -/

theorem known_eq (base : List Item) : ∀ ls : List Layer, CacheOk base ls →
    (known base ls).1 = items base ls ∧ CacheOk base (known base ls).2 ∧
      (known base ls).2.map (fun l => (l.items, l.length)) = ls.map (fun l => (l.items, l.length))
  | [], _ => ⟨rfl, trivial, rfl⟩
  | l :: ls, ⟨h1, h2, h3⟩ => by
    obtain ⟨e1, e2, e3⟩ := known_eq base ls h3
    have key : (if (known base ls).1.length ≠ l.cache.1 then
        ((known base ls).1.length, l.cache.2 ++ transform l.items ((known base ls).1.drop l.cache.1)) else l.cache) =
        ((items base ls).length, transform l.items (items base ls)) := by
      rw [e1]
      by_cases hc : (items base ls).length = l.cache.1
      · rw [if_neg (by simpa using hc)]
        refine Prod.ext hc.symm ?_
        rw [h2, ← hc, List.take_length]
      · rw [if_pos (by simpa using hc), h2, ← transform_append, List.take_append_drop]
    have hit : items base (known base ls).2 = items base ls := by
      have : ∀ a b : List Layer, a.map (fun l => (l.items, l.length)) = b.map (fun l => (l.items, l.length)) → items base a = items base b := by
        intro a
        induction a with
        | nil => intro b hb; cases b with
          | nil => rfl
          | cons => simp at hb
        | cons x a ih => intro b hb; cases b with
          | nil => simp at hb
          | cons y b =>
            simp only [List.map_cons, List.cons.injEq, Prod.mk.injEq] at hb
            simp only [items, hb.1.1, ih b hb.2]
      exact this _ _ e3
    have hk : known base (l :: ls) = (l.items ++ transform l.items (items base ls),
        { l with cache := ((items base ls).length, transform l.items (items base ls)) } :: (known base ls).2) := by
      conv_lhs => unfold known
      simp only [key]
    rw [hk]
    refine ⟨rfl, ⟨?_, ?_, e2⟩, by simp [e3]⟩
    · simp [hit]
    · simp [hit]

theorem items_append (base extra : List Item) : ∀ ls : List Layer, ∃ more, items (base ++ extra) ls = items base ls ++ more
  | [] => ⟨extra, rfl⟩
  | l :: ls => by
    obtain ⟨m, hm⟩ := items_append base extra ls
    exact ⟨transform l.items m, by simp only [items, hm, transform_append, List.append_assoc]⟩

theorem CacheOk.append (base extra : List Item) : ∀ ls : List Layer, CacheOk base ls → CacheOk (base ++ extra) ls
  | [], _ => trivial
  | l :: ls, ⟨h1, h2, h3⟩ => by
    obtain ⟨m, hm⟩ := items_append base extra ls
    refine ⟨by rw [hm, List.length_append]; omega, ?_, CacheOk.append base extra ls h3⟩
    rw [hm, List.take_append_of_le_length h1, h2]

theorem CacheOk.drop (base : List Item) : ∀ (ls : List Layer) (d : Nat), CacheOk base ls → CacheOk base (ls.drop d)
  | _, 0, h => h
  | [], _ + 1, _ => trivial
  | _ :: ls, d + 1, h => CacheOk.drop base ls d h.2.2

/-- Layers that differ in their caches only. -/
def SameLayers (a b : List Layer) : Prop := a.map (fun l => (l.items, l.length)) = b.map (fun l => (l.items, l.length))

theorem SameLayers.items {base : List Item} : ∀ {a b : List Layer}, SameLayers a b → items base a = items base b
  | [], [], _ => rfl
  | [], _ :: _, h => by simp [SameLayers] at h
  | _ :: _, [], h => by simp [SameLayers] at h
  | x :: a, y :: b, h => by
    simp only [SameLayers, List.map_cons, List.cons.injEq, Prod.mk.injEq] at h
    have := SameLayers.items (base := base) (a := a) (b := b) h.2
    simp only [GhostMap.items, h.1.1, this]

theorem CacheOk.setLower {base : List Item} : ∀ (ls : List Layer) (d : Nat) (lower : List Layer), CacheOk base ls →
    CacheOk base lower → SameLayers lower (ls.drop d) → CacheOk base (ls.take d ++ lower)
  | ls, 0, lower, _, h, _ => by simpa using h
  | [], _ + 1, lower, _, h, _ => by simpa using h
  | l :: ls, d + 1, lower, hc, h, hs => by
    have ih := CacheOk.setLower ls d lower hc.2.2 h hs
    have hsame : SameLayers (ls.take d ++ lower) ls := by
      unfold SameLayers at hs ⊢
      rw [List.map_append, hs, ← List.map_append]
      simp
    have hit := hsame.items (base := base)
    refine ⟨?_, ?_, ih⟩
    · show _ ≤ (items base (ls.take d ++ lower)).length
      rw [hit]; exact hc.1
    · show _ = transform l.items ((items base (ls.take d ++ lower)).take _)
      rw [hit]; exact hc.2.1

theorem SameLayers.setLower {ls lower : List Layer} {d : Nat} (hs : SameLayers lower (ls.drop d)) : SameLayers (ls.take d ++ lower) ls := by
  unfold SameLayers at hs ⊢
  rw [List.map_append, hs, ← List.map_append, List.take_append_drop]

theorem SameLayers.drop {a b : List Layer} (h : SameLayers a b) (d : Nat) : SameLayers (a.drop d) (b.drop d) := by
  unfold SameLayers at h ⊢
  rw [List.map_drop, List.map_drop, h]

theorem SameLayers.content {ρ : Env} {w : Contents} : ∀ {a b : List Layer}, SameLayers a b → content ρ w a = content ρ w b
  | [], [], _ => rfl
  | [], _ :: _, h => by simp [SameLayers] at h
  | _ :: _, [], h => by simp [SameLayers] at h
  | x :: a, y :: b, h => by
    simp only [SameLayers, List.map_cons, List.cons.injEq, Prod.mk.injEq] at h
    have := SameLayers.content (ρ := ρ) (w := w) (a := a) (b := b) h.2
    simp only [GhostMap.content, h.1.1, this]

theorem SameLayers.mem {a b : List Layer} (h : SameLayers a b) {l : Layer} (hl : l ∈ a) :
    ∃ l' ∈ b, l'.items = l.items ∧ l'.length = l.length := by
  have : (l.items, l.length) ∈ a.map (fun l => (l.items, l.length)) := List.mem_map.2 ⟨l, hl, rfl⟩
  rw [h] at this
  obtain ⟨l', hl', he⟩ := List.mem_map.1 this
  simp only [Prod.mk.injEq] at he
  exact ⟨l', hl', he.1, he.2⟩

theorem SameLayers.untouched {ρ : Env} {a b : List Layer} (h : SameLayers a b) {k : Nat} (hu : Untouched ρ b k) : Untouched ρ a k := by
  intro l hl i hi
  obtain ⟨l', hl', e, -⟩ := h.mem hl
  exact hu l' hl' i (by rw [e]; exact hi)

theorem SameLayers.symm {a b : List Layer} (h : SameLayers a b) : SameLayers b a := Eq.symm h

theorem SameLayers.lengthOf {m m' : MapS} (hm : m.baseLength = m'.baseLength) {a b : List Layer} (h : SameLayers a b) :
    lengthOf m a = lengthOf m' b := by
  cases a with
  | nil => cases b with
    | nil => exact hm
    | cons => simp [SameLayers] at h
  | cons x a => cases b with
    | nil => simp [SameLayers] at h
    | cons y b =>
      simp only [SameLayers, List.map_cons, List.cons.injEq, Prod.mk.injEq] at h
      exact h.1.2

/- Content. -/

theorem content_untouched {ρ : Env} {w : Contents} {k : Nat} : ∀ {ls : List Layer}, Untouched ρ ls k → content ρ w ls k = w k
  | [], _ => rfl
  | l :: ls, h => by
    have : (l.items.find? fun i => i.key.den ρ == k) = none := by
      rw [List.find?_eq_none]
      intro i hi; simpa using h l (by simp) i hi
    simp only [content, override, this]
    exact content_untouched fun l hl => h l (by simp [hl])

theorem override_of_mem {ρ : Env} {l : List Item} {f : Contents} (hd : ∀ i ∈ l, ∀ j ∈ l, i.key.den ρ = j.key.den ρ → i = j)
    {i : Item} (hi : i ∈ l) : i.ok ρ (override ρ l f) := by
  unfold Item.ok override
  cases hf : l.find? fun j => j.key.den ρ == i.key.den ρ with
  | none => rw [List.find?_eq_none] at hf; exact absurd (beq_self_eq_true _) (hf i hi)
  | some j =>
    have h1 := List.mem_of_find?_eq_some hf
    have h2 : j.key.den ρ = i.key.den ρ := by simpa using List.find?_some hf
    rw [hd j h1 i hi h2]

theorem items_key {base : List Item} {i : Item} : ∀ {ls : List Layer}, i ∈ items base ls →
    (∃ b ∈ base, b.key = i.key) ∨ ∃ l ∈ ls, ∃ j ∈ l.items, j.key = i.key
  | [], h => .inl ⟨i, h, rfl⟩
  | l :: ls, h => by
    rcases List.mem_append.1 h with h | h
    · exact .inr ⟨l, by simp, i, h, rfl⟩
    · obtain ⟨j, hj, hk, -⟩ := mem_transform h
      rcases items_key hj with ⟨b, hb, e⟩ | ⟨l', hl', b, hb, e⟩
      · exact .inl ⟨b, hb, e.trans hk.symm⟩
      · exact .inr ⟨l', by simp [hl'], b, hb, e.trans hk.symm⟩

/-- Every key of a base item or a layer item is the key of a known item. -/
theorem items_has_key {base : List Item} : ∀ {ls : List Layer} {k : E}, ((∃ b ∈ base, b.key = k) ∨ ∃ l ∈ ls, ∃ j ∈ l.items, j.key = k) →
    ∃ i ∈ items base ls, ∀ ρ, i.key.den ρ = k.den ρ
  | [], k, h => by
    rcases h with ⟨b, hb, rfl⟩ | ⟨l, hl, -⟩
    · exact ⟨b, hb, fun _ => rfl⟩
    · simp at hl
  | l :: ls, k, h => by
    by_cases hk : ∃ j ∈ l.items, ∀ ρ, j.key.den ρ = k.den ρ
    · obtain ⟨j, hj, e⟩ := hk
      exact ⟨j, by simp [items, hj], e⟩
    · have : ∃ i ∈ items base ls, ∀ ρ, i.key.den ρ = k.den ρ := by
        apply items_has_key
        rcases h with h | ⟨l', hl', h⟩
        · exact .inl h
        · rcases List.mem_cons.1 hl' with rfl | hl'
          · obtain ⟨j, hj, rfl⟩ := h
            exact absurd ⟨j, hj, fun _ => rfl⟩ hk
          · exact .inr ⟨l', hl', h⟩
      obtain ⟨i, hi, e⟩ := this
      refine ⟨⟨i.key, iteE (l.items.map fun ki => (i.key.eq ki.key, ki.value)) i.value,
        iteB (l.items.map fun ki => (i.key.eq ki.key, ki.present)) i.present⟩, ?_, e⟩
      simp only [items, transform, List.mem_append, List.mem_map, List.mem_filter]
      refine .inr ⟨i, ⟨hi, ?_⟩, rfl⟩
      simp only [List.all_eq_true, Bool.not_eq_true']
      intro j hj
      cases he : i.key.same j.key with
      | false => rfl
      | true => exact absurd ⟨j, hj, fun ρ => by rw [← e ρ, E.same_sound he ρ]⟩ hk

theorem items_ok {ρ : Env} {w : Contents} {base : List Item} : ∀ {ls : List Layer},
    (∀ l ∈ ls, ∀ i ∈ l.items, ∀ j ∈ l.items, i.key.den ρ = j.key.den ρ → i = j) → BaseOk ρ w base ls →
      ∀ i ∈ items base ls, i.ok ρ (content ρ w ls) := by
  intro ls hd hb
  -- items of the lower layers are right as far as their keys are untouched by the upper layers
  have gen : ∀ (ls up : List Layer), (∀ l ∈ ls, ∀ i ∈ l.items, ∀ j ∈ l.items, i.key.den ρ = j.key.den ρ → i = j) →
      BaseOk ρ w base (up ++ ls) → ∀ i ∈ items base ls, Untouched ρ up (i.key.den ρ) → i.ok ρ (content ρ w ls) := by
    intro ls
    induction ls with
    | nil => intro up _ hb i hi hu; exact hb i hi (by simpa using hu)
    | cons l ls ih =>
      intro up hd hb i hi hu
      rcases List.mem_append.1 hi with hi | hi
      · exact override_of_mem (hd l (by simp)) hi
      · obtain ⟨j, hj, hk, hv, hp⟩ := mem_transform hi
        show override ρ l.items (content ρ w ls) (i.key.den ρ) = _
        unfold override
        rw [hv ρ, hp ρ, hk]
        cases hf : l.items.find? fun k => k.key.den ρ == j.key.den ρ with
        | some k => rfl
        | none =>
          refine ih (up ++ [l]) (fun l hl => hd l (by simp [hl])) (by simpa using hb) j hj ?_
          intro l' hl' k hk'
          rcases List.mem_append.1 hl' with hl' | hl'
          · rw [← hk]; exact hu l' hl' k hk'
          · rw [List.mem_singleton.1 hl'] at hk'
            rw [List.find?_eq_none] at hf
            simpa using hf k hk'
  exact fun i hi => gen ls [] hd (by simpa using hb) i hi (by intro l hl; simp at hl)

theorem items_below {n : Nat} {base : List Item} (hb : ∀ i ∈ base, i.within n) : ∀ {ls : List Layer},
    (∀ l ∈ ls, ∀ i ∈ l.items, i.within n) → ∀ i ∈ items base ls, i.within n
  | [], _ => hb
  | l :: ls, h => by
    intro i hi
    rcases List.mem_append.1 hi with hi | hi
    · exact h l (by simp) i hi
    · exact transform_below (h l (by simp)) (items_below hb fun l hl => h l (by simp [hl])) i hi

/- Lengths. -/

/-- The number of new present keys, given the keys already seen. -/
def countNew (ρ : Env) : List Nat → List Item → Nat
  | _, [] => 0
  | keys, i :: is => (if i.key.den ρ ∉ keys ∧ i.present.den ρ = true then 1 else 0) + countNew ρ (keys ++ [i.key.den ρ]) is

theorem knownLength_le (ρ : Env) : ∀ (l : List Item) (n : E) (keys : List E),
    (knownLength n keys l).den ρ ≤ n.den ρ + countNew ρ (keys.map fun k => k.den ρ) l
  | [], n, keys => by simp [knownLength, countNew]
  | i :: l, n, keys => by
    refine (knownLength_le ρ l _ _).trans ?_
    have hall : (andAll (keys.map fun k => B.not (i.key.eq k))).den ρ = decide (i.key.den ρ ∉ keys.map fun k => k.den ρ) := by
      rw [den_andAll, List.all_map, Bool.eq_iff_iff]
      simp only [List.all_eq_true, Function.comp, B.den, den_eq, Bool.not_eq_true', beq_eq_false_iff_ne, decide_eq_true_eq, List.mem_map, not_exists, not_and]
      exact ⟨fun h k hk e => h k hk e.symm, fun h k hk e => h k hk e.symm⟩
    simp only [countNew, List.map_append, List.map_cons, List.map_nil, E.add, E.den, B.den, hall]
    have := Nat.mod_le (n.den ρ + if (decide (i.key.den ρ ∉ keys.map fun k => k.den ρ) && i.present.den ρ) = true then 1 else 0) (2 ^ 64)
    simp only [Bool.and_eq_true, decide_eq_true_eq] at this ⊢
    omega

theorem countNew_le (ρ : Env) (f : Contents) (S : Finset Nat) (hS : ∀ k, k ∈ S ↔ (f k).2 = true) : ∀ (l : List Item) (keys : List Nat),
    (∀ i ∈ l, i.ok ρ f) → countNew ρ keys l ≤ (S.filter fun k => k ∉ keys).card
  | [], keys, _ => Nat.zero_le _
  | i :: l, keys, h => by
    have ih := countNew_le ρ f S hS l (keys ++ [i.key.den ρ]) fun j hj => h j (by simp [hj])
    simp only [countNew]
    have hok : (f (i.key.den ρ)).2 = i.present.den ρ := by rw [h i (by simp)]
    split
    · rename_i hc
      have hmem : i.key.den ρ ∈ S.filter fun k => k ∉ keys := by
        rw [Finset.mem_filter, hS, hok]; exact ⟨hc.2, hc.1⟩
      have hsub : (S.filter fun k => k ∉ keys ++ [i.key.den ρ]) ⊆ (S.filter fun k => k ∉ keys).erase (i.key.den ρ) := by
        intro k hk
        simp only [Finset.mem_filter, List.mem_append, List.mem_singleton, not_or, Finset.mem_erase] at hk ⊢
        exact ⟨hk.2.2, hk.1, hk.2.1⟩
      have := Finset.card_le_card hsub
      rw [Finset.card_erase_of_mem hmem] at this
      have hpos := Finset.card_pos.2 ⟨_, hmem⟩
      omega
    · have hsub : (S.filter fun k => k ∉ keys ++ [i.key.den ρ]) ⊆ S.filter fun k => k ∉ keys := by
        intro k hk
        simp only [Finset.mem_filter, List.mem_append, not_or] at hk ⊢
        exact ⟨hk.1, hk.2.1⟩
      have := Finset.card_le_card hsub
      omega

/-- The counting constraint holds when the known items are right. -/
theorem notOverfull_holds {ρ : Env} {cs : List B} {f : Contents} {len : E} {l : List Item} (hl : LenOk ρ f len) (hi : ∀ i ∈ l, i.ok ρ f) :
    (notOverfull cs len l).den ρ = true := by
  unfold notOverfull
  split
  · rfl
  · obtain ⟨S, hS, hlen, -⟩ := hl
    have h1 := knownLength_le ρ l (.const 0) []
    have h2 := countNew_le ρ f S hS l [] hi
    have h3 : (S.filter fun k => k ∉ ([] : List Nat)).card ≤ S.card := Finset.card_filter_le _ _
    simp only [E.le, B.den, decide_eq_true_eq, hlen]
    simp only [E.den, List.map_nil, Nat.zero_add] at h1
    omega

theorem knownLength_below {n : Nat} : ∀ (l : List Item) (e : E) (keys : List E), e.within n → (∀ k ∈ keys, k.within n) → (∀ i ∈ l, i.within n) →
    (knownLength e keys l).within n
  | [], _, _, he, _, _ => he
  | i :: l, e, keys, he, hk, hi => by
    refine knownLength_below l _ _ ⟨he, ⟨below_andAll _ ?_, (hi i (by simp)).2.2⟩, trivial, trivial⟩ ?_ fun j hj => hi j (by simp [hj])
    · intro b hb
      obtain ⟨k, hk', rfl⟩ := List.mem_map.1 hb
      exact ⟨(hi i (by simp)).1, hk k hk'⟩
    · intro k hk'
      rcases List.mem_append.1 hk' with h | h
      · exact hk k h
      · rw [List.mem_singleton.1 h]; exact (hi i (by simp)).1

theorem notOverfull_below {n : Nat} {cs : List B} {len : E} {l : List Item} (hl : len.within n) (hi : ∀ i ∈ l, i.within n) :
    (notOverfull cs len l).within n := by
  unfold notOverfull
  split
  · trivial
  · exact ⟨knownLength_below l _ _ trivial (by simp) hi, hl⟩

/- Maps under another assignment, with updated caches, and with one more item. -/

theorem Item.ok_congr {n : Nat} {ρ ρ' : Env} (h : Agree n ρ ρ') {f : Contents} {i : Item} (hi : i.within n) : i.ok ρ f ↔ i.ok ρ' f := by
  unfold Item.ok
  rw [E.den_congr h _ hi.1, E.den_congr h _ hi.2.1, B.den_congr h _ hi.2.2]

theorem override_congr {n : Nat} {ρ ρ' : Env} (h : Agree n ρ ρ') (f : Contents) : ∀ {l : List Item}, (∀ i ∈ l, i.within n) →
    override ρ l f = override ρ' l f
  | [], _ => rfl
  | i :: l, hl => by
    funext k
    have ih := congrFun (override_congr h f (l := l) fun j hj => hl j (by simp [hj])) k
    unfold override at ih ⊢
    have hi := hl i (by simp)
    simp only [List.find?_cons, E.den_congr h _ hi.1]
    cases (i.key.den ρ' == k) with
    | true => simp only [E.den_congr h _ hi.2.1, B.den_congr h _ hi.2.2]
    | false => exact ih

theorem content_congr {n : Nat} {ρ ρ' : Env} (h : Agree n ρ ρ') (w : Contents) : ∀ {ls : List Layer}, (∀ l ∈ ls, ∀ i ∈ l.items, i.within n) →
    content ρ w ls = content ρ' w ls
  | [], _ => rfl
  | l :: ls, hl => by
    simp only [content]
    rw [content_congr h w fun l hl' => hl l (by simp [hl']), override_congr h _ (hl l (by simp))]

theorem Untouched.congr {n : Nat} {ρ ρ' : Env} (h : Agree n ρ ρ') {ls : List Layer} (hl : ∀ l ∈ ls, ∀ i ∈ l.items, i.within n) {k : Nat} :
    Untouched ρ ls k ↔ Untouched ρ' ls k := by
  constructor <;> intro hu l hl' i hi
  · rw [← E.den_congr h _ (hl l hl' i hi).1]; exact hu l hl' i hi
  · rw [E.den_congr h _ (hl l hl' i hi).1]; exact hu l hl' i hi

theorem MapBelow.mono {n n' : Nat} (h : n ≤ n') {m : MapS} (hm : MapBelow n m) : MapBelow n' m := by
  have hi : ∀ i : Item, i.within n → i.within n' := fun i hi => ⟨E.within_mono h _ hi.1, E.within_mono h _ hi.2.1, B.within_mono h _ hi.2.2⟩
  exact ⟨fun i h' => hi i (hm.base i h'), E.within_mono h _ hm.length, hi _ hm.unknown,
    fun l hl => ⟨E.within_mono h _ (hm.layers l hl).1, fun i h' => hi i ((hm.layers l hl).2 i h')⟩, fun inv h' => IB.pure_mono h _ (hm.invs inv h')⟩

theorem lengthOf_within {n : Nat} {m : MapS} (hm : MapBelow n m) (d : Nat) : (lengthOf m (m.layers.drop d)).within n := by
  cases h : m.layers.drop d with
  | nil => exact hm.length
  | cons l ls => exact (hm.layers l (List.mem_of_mem_drop (by rw [h]; simp))).1

theorem BaseOk.congr {n : Nat} {ρ ρ' : Env} (h : Agree n ρ ρ') {w : Contents} {base : List Item} {ls : List Layer}
    (hl : ∀ l ∈ ls, ∀ i ∈ l.items, i.within n) (hw : ∀ i ∈ base, i.within n) (hb : BaseOk ρ w base ls) : BaseOk ρ' w base ls := by
  intro i hi hu
  rw [← Item.ok_congr h (hw i hi)]
  refine hb i hi ?_
  rw [E.den_congr h _ (hw i hi).1, Untouched.congr h hl]; exact hu

theorem MapOk.congr {n n' : Nat} {ρ ρ' : Env} (hn : n ≤ n') (h : Agree n ρ ρ') {w : Contents} {m : MapS} (hm : MapOk n ρ w m) :
    MapOk n' ρ' w m := by
  have hw := hm.within
  have hl : ∀ l ∈ m.layers, ∀ i ∈ l.items, i.within n := fun l hl i hi => (hw.layers l hl).2 i hi
  refine ⟨hw.mono hn, hm.caches, ?_, hm.base.congr h hl hw.base, ?_, ?_, ?_, ?_, ?_⟩
  · intro l hl' i hi j hj e
    refine hm.distinct l hl' i hi j hj ?_
    rw [E.den_congr h _ (hl l hl' i hi).1, E.den_congr h _ (hl l hl' j hj).1, e]
  · rw [← E.den_congr h _ hw.unknown.1, ← Untouched.congr h hl]; exact hm.unknownKey
  · rw [← Item.ok_congr h hw.unknown]; exact hm.unknown
  · intro l hl' i hi
    rw [← E.den_congr h _ (hl l hl' i hi).1]
    rcases hm.touched l hl' i hi with ⟨b, hb, e⟩ | e
    · exact .inl ⟨b, hb, by rw [← E.den_congr h _ (hw.base b hb).1]; exact e⟩
    · exact .inr e
  · intro inv hi k hk
    rw [← IB.sem_congr h _ _ _ _ (hw.invs inv hi)]
    refine hm.invs inv hi k fun b hb => ?_
    rw [E.den_congr h _ (hw.base b hb).1]; exact hk b hb
  · intro d
    obtain ⟨S, h1, h2, h3⟩ := hm.length d
    refine ⟨S, ?_, ?_, h3⟩
    · rw [← content_congr h w fun l hl' => hl l (List.mem_of_mem_drop hl')]; exact h1
    · rw [← E.den_congr h _ (lengthOf_within hw d)]; exact h2

theorem MapOk.setLower {n : Nat} {ρ : Env} {w : Contents} {m : MapS} (hm : MapOk n ρ w m) {d : Nat} {lower : List Layer}
    (hc : CacheOk m.base lower) (hs : SameLayers lower (m.layers.drop d)) : MapOk n ρ w (m.setLower d lower) := by
  have hs' : SameLayers (m.setLower d lower).layers m.layers := hs.setLower
  have hw := hm.within
  refine ⟨⟨hw.base, hw.length, hw.unknown, ?_, hw.invs⟩, CacheOk.setLower _ d _ hm.caches hc hs, ?_, ?_, ?_, hm.unknown, ?_, hm.invs, ?_⟩
  · intro l hl
    obtain ⟨l', hl', e1, e2⟩ := hs'.mem hl
    rw [← e1, ← e2]; exact hw.layers l' hl'
  · intro l hl
    obtain ⟨l', hl', e1, -⟩ := hs'.mem hl
    rw [← e1]; exact hm.distinct l' hl'
  · intro i hi hu
    exact hm.base i hi (hs'.symm.untouched hu)
  · exact hs'.untouched hm.unknownKey
  · intro l hl
    obtain ⟨l', hl', e1, -⟩ := hs'.mem hl
    rw [← e1]; exact hm.touched l' hl'
  · intro d'
    rw [(hs'.drop d').content, SameLayers.lengthOf (m := m.setLower d lower) (m' := m) rfl (hs'.drop d')]
    exact hm.length d'

theorem MapOk.addItem {n : Nat} {ρ : Env} {w : Contents} {m : MapS} (hm : MapOk n ρ w m) {item : Item} (hi : item.within n)
    (hok : Untouched ρ m.layers (item.key.den ρ) → item.ok ρ w) : MapOk n ρ w { m with base := m.base ++ [item] } := by
  have hw := hm.within
  refine ⟨⟨?_, hw.length, hw.unknown, hw.layers, hw.invs⟩, hm.caches.append _ _ _, hm.distinct, ?_, hm.unknownKey, hm.unknown, ?_, ?_, ?_⟩
  · intro i h
    rcases List.mem_append.1 h with h | h
    · exact hw.base i h
    · rw [List.mem_singleton.1 h]; exact hi
  · intro i h hu
    rcases List.mem_append.1 h with h | h
    · exact hm.base i h hu
    · rw [List.mem_singleton.1 h] at hu ⊢; exact hok hu
  · intro l hl i hi'
    rcases hm.touched l hl i hi' with ⟨b, hb, e⟩ | e
    · exact .inl ⟨b, by simp [hb], e⟩
    · exact .inr e
  · intro inv h k hk
    exact hm.invs inv h k fun b hb => hk b (by simp [hb])
  · intro d
    obtain ⟨S, h1, h2, h3⟩ := hm.length d
    refine ⟨S, h1, ?_, h3⟩
    rw [← h2]
    have : lengthOf { m with base := m.base ++ [item] } (m.layers.drop d) = lengthOf m (m.layers.drop d) := by
      cases m.layers.drop d <;> rfl
    rw [this]

end Verif.Tool.GhostMap
