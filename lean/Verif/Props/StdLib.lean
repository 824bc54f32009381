/-
C94: the lemmas of /repo/env/include/proof/stdex.gh and nth-prop.gh that C77 does not speak of are true.
-/
import Verif.Spec.ListLib

set_option autoImplicit false

namespace Verif.Props
open Verif.Buckets Verif.ListLib
open Verif.ProofLib (loopFp)

/-- C94, stdex.gh: predicates on the elements of a list and their positions. -/
theorem C94_elements {α β : Type} :
    -- stdex.gh:24-28 forall2_nth
    (∀ (d : α) (d2 : β) (l1 : List α) (l2 : List β) (f : α → β → Bool) (ix : Int), 0 ≤ ix → ix < (l1.length : Int) →
      ix < (l2.length : Int) → forall2 f l1 l2 → f (nth d ix l1) (nth d2 ix l2) = true) ∧
    -- stdex.gh:42-44 forall2_update
    (∀ (l1 : List α) (l2 : List β) (f : α → β → Bool) (i : Int) (v1 : α) (v2 : β), forall2 f l1 l2 → f v1 v2 = true →
      forall2 f (update i v1 l1) (update i v2 l2)) ∧
    -- stdex.gh:64-66 forall_idx_nth
    (∀ (d : α) (values : List α) (idx : Int) (p : Int → α → Bool) (i : Int), 0 ≤ i → i < (values.length : Int) →
      forallIdx p values idx → p (idx + i) (nth d i values) = true) ∧
    -- stdex.gh:74-76 forall_idx_update
    (∀ (values : List α) (idx : Int) (p : Int → α → Bool) (i : Int) (v : α), forallIdx p values idx →
      p (idx + i) v = true → forallIdx p (update i v values) idx) ∧
    -- stdex.gh:84-86 forall_idx_tail (the only lemma that needs VeriFast's choice of nil as the tail of nil)
    (∀ (values : List α) (idx : Int) (p : Int → α → Bool), forallIdx p values idx → forallIdx p (tail [] values) (idx + 1)) ∧
    -- stdex.gh:94-98 extract_prop_by_idx
    (∀ (d : α) (v : List α) (p : Int → α → Bool) (start ix : Int), forallIdx p v start → 0 ≤ ix - start →
      ix - start < (v.length : Int) → p ix (nth d (ix - start) v) = true) ∧
    -- stdex.gh:231-235 forall_sup_map
    (∀ (l : List α) (f1 : β → Bool) (f2 : α → β), (∀ z ∈ l, f1 (f2 z) = true) ↔ (∀ z ∈ l.map f2, f1 z = true)) := by
  have hidx : ∀ (d : α) (values : List α) (idx : Int) (p : Int → α → Bool) (i : Int), 0 ≤ i → i < (values.length : Int) →
      forallIdx p values idx → p (idx + i) (nth d i values) = true := by
    intro d values
    induction values with
    | nil => intro idx p i h0 h1; exact absurd h1 (Int.not_lt.2 h0)
    | cons x xs ih =>
      intro idx p i h0 h1 h
      simp only [nth]
      split
      · rename_i e; subst e; simpa using h.1
      · have := ih (idx + 1) p (i - 1) (by omega) (by simp at h1; omega) h.2
        rwa [show idx + 1 + (i - 1) = idx + i by omega] at this
  refine ⟨?_, ?_, hidx, ?_, ?_, ?_, ?_⟩
  · intro d d2 l1
    induction l1 with
    | nil => intro l2 f ix h0 h1; exact absurd h1 (Int.not_lt.2 h0)
    | cons x xs ih =>
      intro l2 f ix h0 h1 h2 h
      cases l2 with
      | nil => exact absurd h2 (Int.not_lt.2 h0)
      | cons y ys =>
        simp only [nth]
        split
        · exact h.1
        · exact ih ys f (ix - 1) (by omega) (by simp at h1; omega) (by simp at h2; omega) h.2
  · intro l1
    induction l1 with
    | nil => intro l2 f i v1 v2 _ _; simp [update, forall2]
    | cons x xs ih =>
      intro l2 f i v1 v2 h hv
      cases l2 with
      | nil => simp only [update]; split <;> trivial
      | cons y ys =>
        simp only [update]
        split
        · exact ⟨hv, h.2⟩
        · exact ⟨h.1, ih ys f (i - 1) v1 v2 h.2 hv⟩
  · intro values
    induction values with
    | nil => intro idx p i v _ _; simp [update, forallIdx]
    | cons x xs ih =>
      intro idx p i v h hv
      simp only [update]
      split
      · rename_i e; subst e; exact ⟨by simpa using hv, h.2⟩
      · refine ⟨h.1, ih (idx + 1) p (i - 1) v h.2 ?_⟩
        rwa [show idx + 1 + (i - 1) = idx + i by omega]
  · intro values idx p h
    cases values with
    | nil => trivial
    | cons x xs => exact h.2
  · intro d v p start ix h h0 h1
    have := hidx d v start p (ix - start) h0 h1 h
    rwa [show start + (ix - start) = ix by omega] at this
  · intro l f1 f2; simp

/-- The hypotheses of `forall2_update` with lists of different lengths, and of `extract_prop_by_idx`, hold. -/
example :
    (forall2 (fun a b => decide (a < b)) [1, 2, 3] [4, 5] ∧ decide (0 < 9) = true) ∧
    (forallIdx (fun i n => decide ((n : Int) = 2 * i)) [6, 8, 10] 3 ∧ (0 : Int) ≤ 4 - 3 ∧
      (4 : Int) - 3 < ([6, 8, 10] : List Nat).length) := by
  simp [forall2, forallIdx]

/-- C94, stdex.gh: bounds of the elements of a list. -/
theorem C94_bounds {κ : Type} [DecidableEq κ] :
    -- stdex.gh:119-121 forall_ge_lower
    (∀ (xs : List Int) (low x : Int), (∀ z ∈ xs, low ≤ z) → x < low → x ∉ xs) ∧
    -- stdex.gh:129-131 distinct_ge
    (∀ (xs : List Int) (low x : Int), xs.Nodup → (∀ z ∈ xs, low ≤ z) → x < low → (x :: xs).Nodup) ∧
    -- stdex.gh:148-150 ge_le_ge
    (∀ (l : List Int) (i x : Int), x ≤ i → (∀ z ∈ l, i ≤ z) → ∀ z ∈ l, x ≤ z) ∧
    -- stdex.gh:159-161 lt_le_lt
    (∀ (xs : List Int) (bound up : Int), bound ≤ up → (∀ z ∈ xs, z < bound) → ∀ z ∈ xs, z < up) ∧
    -- stdex.gh:201-204 less_and_not_eq_lesser
    (∀ x lim : Nat, (x : Int) < ((lim + 1 : Nat) : Int) → x ≠ lim → (x : Int) < (lim : Int)) ∧
    -- stdex.gh:244-246 two_inequalities_give_eq
    (∀ a b : Int, a ≤ b → b ≤ a → a = b) ∧
    -- stdex.gh:306-309 lower_limit_ge_than
    (∀ (l : List (κ × Nat)) (lim : Int), ∀ z ∈ (l.filter (fun q => decide (lim ≤ (q.2 : Int)))).map Prod.snd,
      lim ≤ (z : Int)) ∧
    -- stdex.gh:315-318 upper_limit_nat_lt
    (∀ (l : List (κ × Nat)) (lim : Int), ∀ z ∈ (l.filter (fun q => decide ((q.2 : Int) < lim))).map Prod.snd,
      (z : Int) < lim) ∧
    -- stdex.gh:324-327 nat_lt_and_ge_disjoint
    (∀ (lst : List Nat) (lim : Int), (∀ z ∈ lst, (z : Int) < lim) → (∀ z ∈ lst, lim ≤ (z : Int)) → lst = []) ∧
    -- stdex.gh:335-341 lower_and_upper_limit_complement
    (∀ (l : List (κ × Nat)) (lim : Int),
      multisetEq (l.filter (fun q => decide (lim ≤ (q.2 : Int))) ++ l.filter (fun q => decide ((q.2 : Int) < lim))) l ∧
      disjoint ((l.filter (fun q => decide (lim ≤ (q.2 : Int)))).map Prod.snd)
        ((l.filter (fun q => decide ((q.2 : Int) < lim))).map Prod.snd)) ∧
    -- stdex.gh:375-378 separated_by_bnd_disjoint
    (∀ (l1 l2 : List Nat) (bnd : Int), (∀ z ∈ l1, (z : Int) < bnd) → (∀ z ∈ l2, bnd ≤ (z : Int)) → disjoint l1 l2) ∧
    -- stdex.gh:391-393 lt_and_ge_false
    (∀ x y : Int, x < y → y ≤ x → False) := by
  refine ⟨?_, ?_, ?_, ?_, ?_, ?_, ?_, ?_, ?_, ?_, ?_, ?_⟩
  · intro xs low x h hx hm; have := h x hm; omega
  · intro xs low x hn h hx
    exact List.nodup_cons.2 ⟨fun hm => by have := h x hm; omega, hn⟩
  · intro l i x hx h z hz; have := h z hz; omega
  · intro xs bound up hb h z hz; have := h z hz; omega
  · intro x lim h1 h2; omega
  · intro a b h1 h2; omega
  · intro l lim z hz
    obtain ⟨q, hq, rfl⟩ := List.mem_map.1 hz
    simpa using (List.mem_filter.1 hq).2
  · intro l lim z hz
    obtain ⟨q, hq, rfl⟩ := List.mem_map.1 hz
    simpa using (List.mem_filter.1 hq).2
  · intro lst lim h1 h2
    cases lst with
    | nil => rfl
    | cons x xs => have a := h1 x (by simp); have b := h2 x (by simp); omega
  · intro l lim
    constructor
    · rw [multisetEq_iff]
      have e : (fun q : κ × Nat => decide ((q.2 : Int) < lim)) = fun q => !decide (lim ≤ (q.2 : Int)) := by
        funext q
        by_cases h : lim ≤ (q.2 : Int)
        · simp [h]
        · simp [h, Int.not_le.1 h]
      rw [e]
      exact List.filter_append_perm _ l
    · rw [disj_iff]
      intro z h1 h2
      obtain ⟨a, ha, rfl⟩ := List.mem_map.1 h1
      obtain ⟨b, hb, hab⟩ := List.mem_map.1 h2
      have x := (List.mem_filter.1 ha).2
      have y := (List.mem_filter.1 hb).2
      simp only [decide_eq_true_eq] at x y
      rw [hab] at y
      omega
  · intro l1 l2 bnd h1 h2
    rw [disj_iff]
    intro z a b
    have := h1 z a
    have := h2 z b
    omega
  · intro x y h1 h2; omega

/-- The hypotheses of `distinct_ge` and `separated_by_bnd_disjoint` hold. -/
example :
    ([5, 3, 4].Nodup ∧ (∀ z ∈ [5, 3, 4], (3 : Int) ≤ z) ∧ (2 : Int) < 3) ∧
    ((∀ z ∈ [1, 0, 1], (z : Int) < 2) ∧ (∀ z ∈ [2, 7], (2 : Int) ≤ (z : Int))) := by decide

/-- C94, nth-prop.gh: properties of all elements up to an index, also of a list that is read around its end. -/
theorem C94_up_to {α : Type} :
    -- nth-prop.gh:18-20 up_to_covers_x
    (∀ (n : Nat) (prop : Int → Prop) (x : Int), upTo prop n → 0 ≤ x → x < (n : Int) → prop x) ∧
    -- nth-prop.gh:36-41 shift_for_all
    (∀ (d : α) (arr : List α) (prop : α → Prop) (shift inlen : Int) (outlen : Nat), 0 ≤ shift →
      shift + (outlen : Int) ≤ inlen → upTo (nthProp d arr prop) inlen.toNat → upTo (shiftNthProp d arr prop shift) outlen) ∧
    -- nth-prop.gh:52-58 shift_for_append
    (∀ (d : α) (l1 l2 : List α) (prop : α → Prop) (outlen : Nat), upTo (shiftNthProp d (l1 ++ l2) prop l1.length) outlen →
      (outlen : Int) ≤ l2.length → upTo (nthProp d l2 prop) outlen) ∧
    -- nth-prop.gh:97-101 byLoopNthPropEqNthPropUpTo
    (∀ (d : α) (n : Nat) (lst : List α) (prop : α → Prop) (capacity : Int), (n : Int) ≤ capacity →
      (upTo (byLoopNthProp d lst prop capacity 0) n ↔ upTo (nthProp d lst prop) n)) ∧
    -- nth-prop.gh:111-118 upToByLoopNthPropShift1
    (∀ (d : α) (n : Nat) (hd : α) (tl : List α) (prop : α → Prop) (capacity start : Int),
      upTo (byLoopNthProp d (hd :: tl) prop capacity start) n → (n : Int) + start ≤ capacity → 0 < start →
      upTo (byLoopNthProp d tl prop capacity (start - 1)) n) ∧
    -- nth-prop.gh:129-132 upToNthPropShift1
    (∀ (d : α) (n : Nat) (hd : α) (tl : List α) (prop : α → Prop),
      upTo (nthProp d (hd :: tl) prop) (n + 1) ↔ (prop hd ∧ upTo (nthProp d tl prop) n)) ∧
    -- nth-prop.gh:154-165 break_down_up_to_by_loop_rec
    (∀ (d : α) (i : Nat) (lst : List α) (start capacity : Int) (prop : α → Prop),
      upTo (byLoopNthProp d lst prop capacity start) i → 0 ≤ start → start < capacity → capacity ≤ lst.length →
      capacity ≤ start + (i : Int) → (i : Int) ≤ capacity →
      upTo (byLoopNthProp d lst prop capacity start) (capacity - start).toNat ∧
      upTo (nthProp d lst prop) ((i : Int) + start - capacity).toNat) ∧
    -- nth-prop.gh:187-199 break_down_up_to_by_loop
    (∀ (d : α) (lst : List α) (i start capacity : Int) (prop : α → Prop), capacity ≤ lst.length → 0 ≤ start →
      start < capacity → capacity ≤ start + i → i ≤ capacity →
      upTo (byLoopNthProp d lst prop capacity start) i.toNat →
      upTo (byLoopNthProp d lst prop capacity start) (capacity - start).toNat ∧
      upTo (nthProp d lst prop) (start + i - capacity).toNat) := by
  have hloop : ∀ k c : Int, 0 ≤ k → k < c → loopFp k c = k := by
    intro k c h0 h1
    obtain ⟨k, rfl⟩ := Int.eq_ofNat_of_zero_le h0
    obtain ⟨c, rfl⟩ := Int.eq_ofNat_of_zero_le (show 0 ≤ c by omega)
    rw [loopFp_nat _ _ (by omega), Nat.mod_eq_of_lt (by omega)]
  have hloop2 : ∀ k c : Int, 0 ≤ k → k < c → loopFp (k + c) c = k := by
    intro k c h0 h1
    obtain ⟨k, rfl⟩ := Int.eq_ofNat_of_zero_le h0
    obtain ⟨c, rfl⟩ := Int.eq_ofNat_of_zero_le (show 0 ≤ c by omega)
    rw [← Int.natCast_add, loopFp_nat _ _ (by omega), Nat.add_mod_right, Nat.mod_eq_of_lt (by omega)]
  have hbreak : ∀ (d : α) (i : Nat) (lst : List α) (start capacity : Int) (prop : α → Prop),
      upTo (byLoopNthProp d lst prop capacity start) i → 0 ≤ start → start < capacity →
      capacity ≤ start + (i : Int) → (i : Int) ≤ capacity →
      upTo (byLoopNthProp d lst prop capacity start) (capacity - start).toNat ∧
      upTo (nthProp d lst prop) ((i : Int) + start - capacity).toNat := by
    intro d i lst start capacity prop h h0 h1 h2 h3
    simp only [upTo_iff] at h ⊢
    refine ⟨fun m hm => h m (by omega), fun m hm => ?_⟩
    have := h (m + capacity - start).toNat (by omega)
    unfold byLoopNthProp at this
    rwa [show (((m : Int) + capacity - start).toNat : Int) + start = m + capacity by omega,
      hloop2 _ _ (by omega) (by omega)] at this
  refine ⟨?_, ?_, ?_, ?_, ?_, ?_, ?_, ?_⟩
  · intro n prop x h h0 h1
    rw [upTo_iff] at h
    have := h x.toNat (by omega)
    rwa [Int.toNat_of_nonneg h0] at this
  · intro d arr prop shift inlen outlen h0 h1 h
    rw [upTo_iff] at h ⊢
    intro m hm
    have := h (shift + m).toNat (by omega)
    rwa [Int.toNat_of_nonneg (by omega)] at this
  · intro d l1 l2 prop outlen h h1
    rw [upTo_iff] at h ⊢
    intro m hm
    have := h m hm
    unfold shiftNthProp at this
    unfold nthProp at this ⊢
    rw [← Int.natCast_add, nth_nat] at this
    rw [nth_nat]
    rwa [List.getD_eq_getElem?_getD, List.getElem?_append_right (by omega), Nat.add_sub_cancel_left,
      ← List.getD_eq_getElem?_getD] at this
  · intro d n lst prop capacity h
    simp only [upTo_iff]
    refine forall_congr' fun m => imp_congr_right fun hm => ?_
    unfold byLoopNthProp
    rw [Int.add_zero, hloop _ _ (by omega) (by omega)]
  · intro d n hd tl prop capacity start h h1 h2
    rw [upTo_iff] at h ⊢
    intro m hm
    have := h m hm
    unfold byLoopNthProp nthProp at this ⊢
    rw [hloop _ _ (by omega) (by omega)] at this ⊢
    simp only [nth] at this
    rwa [if_neg (by omega), show (m : Int) + start - 1 = m + (start - 1) by omega] at this
  · intro d n hd tl prop
    simp only [upTo_iff]
    constructor
    · intro h
      refine ⟨?_, fun m hm => ?_⟩
      · have := h 0 (by omega)
        simpa [nthProp, nth] using this
      · have := h (m + 1) (by omega)
        unfold nthProp at this ⊢
        rw [nth_nat] at this ⊢
        simpa using this
    · rintro ⟨h0, h⟩ m hm
      cases m with
      | zero => simpa [nthProp, nth] using h0
      | succ m =>
        have := h m (by omega)
        unfold nthProp at this ⊢
        rw [nth_nat] at this ⊢
        simpa using this
  · intro d i lst start capacity prop h h0 h1 _ h2 h3
    exact hbreak d i lst start capacity prop h h0 h1 h2 h3
  · intro d lst i start capacity prop _ h0 h1 h2 h3 h
    have := hbreak d i.toNat lst start capacity prop h h0 h1 (by omega) (by omega)
    rwa [Int.toNat_of_nonneg (by omega), show i + start - capacity = start + i - capacity by omega] at this

/-- The hypotheses of `break_down_up_to_by_loop` and `shift_for_append` hold: the elements 2, 0 and 1 of three are even, read
from 2 on and around the end, and those of the second of two lists are. -/
example :
    upTo (byLoopNthProp 1 [2, 4, 6] (fun n => n % 2 = 0) 3 2) 3 ∧ ((3 : Int) ≤ ([2, 4, 6] : List Nat).length) ∧
    upTo (shiftNthProp 1 ([3] ++ [2, 4]) (fun n => n % 2 = 0) 1) 2 := by
  simp only [upTo, byLoopNthProp, shiftNthProp, nthProp]; decide

/-- C94, what `forall2` and `forall_idx` say: the relation holds at each position that both lists have, and the condition at each
position with its number. -/
theorem C94_pointwise {α β : Type} (f : α → β → Bool) (l1 : List α) (l2 : List β) (prop : Int → α → Bool) (idx : Int) :
    (forall2 f l1 l2 ↔ ∀ (i : Nat) (a : α) (b : β), l1[i]? = some a → l2[i]? = some b → f a b = true) ∧
    (forallIdx prop l1 idx ↔ ∀ (i : Nat) (a : α), l1[i]? = some a → prop (idx + i) a = true) := by
  constructor
  · induction l1 generalizing l2 with
    | nil => simp [forall2]
    | cons h t ih =>
      cases l2 with
      | nil => simp [forall2]
      | cons h2 t2 =>
        unfold forall2
        rw [ih]
        constructor
        · rintro ⟨h3, h4⟩ i a b ha hb
          cases i with
          | zero => simp at ha hb; subst ha hb; exact h3
          | succ i => exact h4 i a b ha hb
        · intro h3
          exact ⟨h3 0 _ _ rfl rfl, fun i a b ha hb => h3 (i + 1) a b ha hb⟩
  · induction l1 generalizing idx with
    | nil => simp [forallIdx]
    | cons h t ih =>
      unfold forallIdx
      rw [ih]
      constructor
      · rintro ⟨h3, h4⟩ i a ha
        cases i with
        | zero => simp at ha; subst ha; simpa using h3
        | succ i =>
          have := h4 i a ha
          rwa [show idx + 1 + (i : Int) = idx + ((i + 1 : Nat) : Int) by omega] at this
      · intro h3
        refine ⟨by simpa using h3 0 _ rfl, fun i a ha => ?_⟩
        have := h3 (i + 1) a ha
        rwa [show idx + ((i + 1 : Nat) : Int) = idx + 1 + (i : Int) by omega] at this

example : forall2 (fun (a : Nat) (b : Nat) => a ≤ b) [1, 2, 3] [4, 5] ∧ forallIdx (fun i (a : Nat) => i == a) [5, 6] 5 := by
  simp [forall2, forallIdx]

end Verif.Props
