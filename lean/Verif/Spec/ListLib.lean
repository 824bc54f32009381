/-
The functions on lists of /repo/env/include/proof/listexex.gh, set.gh, multiset.gh, multisubset.gh and listutils.gh, on which
the lemmas of these files, of listutils-lemmas.gh and of natlist.gh are stated.

As in `Verif.Spec.Buckets`: VeriFast's `int` is the integers and `nat` the natural numbers, `nth`, `take`, `drop`, `update`,
`index_of`, `head`, `tail` and `all_eq` are written as VeriFast defines them, and of VeriFast's own list.gh and listex.gh,
which are not in the repository, `length`, `append`, `reverse`, `map`, `filter`, `mem`, `distinct`, `forall`, `remove` (of the
first occurrence), `subset` and `count` are those of Lean's lists (`distinct` is `List.Nodup`, `remove` is `List.erase`,
`subset` is `⊆` and `count` is `List.countP`). `fixpoint bool` functions are propositions here, except those that are passed
as arguments, which are functions to `Bool`.
-/
import Verif.Spec.BucketsProofs
import Mathlib.Data.List.Perm.Subperm
import Mathlib.Data.List.Nodup
import Mathlib.Data.List.Count

set_option autoImplicit false

namespace Verif.ListLib
open Verif.Buckets

section
variable {α β : Type}

/-- listex.gh `intersection`, of VeriFast: the elements of the first list that the second has. -/
def intersection [DecidableEq α] : List α → List α → List α
  | [], _ => []
  | x :: xs, ys => if x ∈ ys then x :: intersection xs ys else intersection xs ys

/-- listexex.gh:755-757 `disjoint`. -/
def disjoint [DecidableEq α] (l1 l2 : List α) : Prop := intersection l1 l2 = []

/-- set.gh:296-298 `set_eq`. -/
def setEq (l1 l2 : List α) : Prop := l1 ⊆ l2 ∧ l2 ⊆ l1

/-- multiset.gh:6-13 `multiset_eq`. -/
def multisetEq [DecidableEq α] : List α → List α → Prop
  | [], l2 => l2 = []
  | h :: t, l2 => h ∈ l2 ∧ multisetEq t (l2.erase h)

/-- multisubset.gh:7-13 `msubset`. -/
def msubset [DecidableEq α] : List α → List α → Prop
  | [], _ => True
  | h :: t, l2 => h ∈ l2 ∧ msubset t (l2.erase h)

/-- listutils.gh:10-15 `filter_idx`. -/
def filterIdx : List α → Int → (α → Bool) → List Int
  | [], _, _ => []
  | x :: xs, idx, fp => if fp x then idx :: filterIdx xs (idx + 1) fp else filterIdx xs (idx + 1) fp

/-- listutils.gh:19-24 `index_of_fp`. -/
def indexOfFp : List α → Int → (α → Bool) → Option Int
  | [], _, _ => none
  | x :: xs, idx, fp => if fp x then some idx else indexOfFp xs (idx + 1) fp

/-- listutils.gh:28-33 `integer_copies`. -/
def integerCopies : Nat → Int → List Int → Prop
  | 0, nb, xs => (xs.countP (fun z => decide ((0 : Int) = z)) : Int) = nb
  | val + 1, nb, xs => (xs.countP (fun z => decide (((val + 1 : Nat) : Int) = z)) : Int) = nb ∧ integerCopies val nb xs

/-- listutils.gh:37-42 `flatten`. -/
def flatten : List (List α) → List α
  | [] => []
  | x :: xs => x ++ flatten xs

/-- listutils.gh:46-48 `chunk`. -/
def chunk (xs : List α) (b e : Int) : List α := take (e - b) (drop b xs)

/-- listutils.gh:52-57 `repeat`. -/
def rep (elem : α) : Nat → List α
  | 0 => []
  | n + 1 => elem :: rep elem n

/-- listutils.gh:61-66 `split_varlim`. -/
def splitVarlim : List α → Int → List Int → List (List α)
  | _, _, [] => []
  | xs, n, l :: ls => take l xs :: splitVarlim (drop n xs) n ls

/-- listutils.gh:70-75 `split`. -/
def split : List α → Nat → Int → List (List α)
  | _, 0, _ => []
  | xs, nb + 1, n => take n xs :: split (drop n xs) nb n

/-- listutils.gh:79-84 `integers_list`. -/
def integersList : Nat → Int → List Int
  | 0, _ => []
  | cnt + 1, ix => ix :: integersList cnt (ix + 1)

/-- listutils.gh:88-97 `zip`. -/
def zip : List α → List β → List (α × β)
  | [], _ => []
  | _ :: _, [] => []
  | x :: xs, y :: ys => (x, y) :: zip xs ys

/-- listutils.gh:101-103 `zip_index`. -/
def zipIndex (xs : List α) (idx : Int) : List (Int × α) := zip (integersList xs.length idx) xs

/-- stdex.gh:12-22 `forall2`, which compares only as many elements as both lists have. -/
def forall2 (f : α → β → Bool) : List α → List β → Prop
  | [], _ => True
  | _ :: _, [] => True
  | h1 :: t1, h2 :: t2 => f h1 h2 = true ∧ forall2 f t1 t2

/-- stdex.gh:56-62 `forall_idx`. -/
def forallIdx (prop : Int → α → Bool) : List α → Int → Prop
  | [], _ => True
  | h :: t, idx => prop idx h = true ∧ forallIdx prop t (idx + 1)

/-- nth-prop.gh:31-34 `shiftNthProp`. -/
def shiftNthProp (dflt : α) (arr : List α) (prop : α → Prop) (shift index : Int) : Prop :=
  nthProp dflt arr prop (shift + index)

end

/-! ### What these are in terms of Lean's own notions -/

section
variable {α β : Type}

theorem mem_intersection [DecidableEq α] (z : α) (l1 l2 : List α) : z ∈ intersection l1 l2 ↔ z ∈ l1 ∧ z ∈ l2 := by
  induction l1 with
  | nil => simp [intersection]
  | cons x xs ih =>
    unfold intersection
    split <;> grind

theorem disj_iff [DecidableEq α] (l1 l2 : List α) : disjoint l1 l2 ↔ ∀ z, z ∈ l1 → z ∉ l2 := by
  unfold disjoint
  rw [List.eq_nil_iff_forall_not_mem]
  simp only [mem_intersection, not_and]

theorem msubset_iff [DecidableEq α] (l1 l2 : List α) : msubset l1 l2 ↔ ∀ a, l1.count a ≤ l2.count a := by
  induction l1 generalizing l2 with
  | nil => simp [msubset]
  | cons h t ih =>
    unfold msubset
    rw [ih]
    constructor
    · rintro ⟨h1, h2⟩ a
      have := h2 a
      have h3 := List.count_pos_iff.2 h1
      rw [List.count_erase] at this
      rw [List.count_cons]
      grind
    · intro h1
      have h2 := h1 h
      simp only [List.count_cons_self] at h2
      refine ⟨List.count_pos_iff.1 (by omega), fun a => ?_⟩
      have := h1 a
      rw [List.count_cons] at this
      rw [List.count_erase]
      grind

theorem multisetEq_iff [DecidableEq α] (l1 l2 : List α) : multisetEq l1 l2 ↔ l1.Perm l2 := by
  induction l1 generalizing l2 with
  | nil => simp [multisetEq]
  | cons h t ih =>
    unfold multisetEq
    rw [ih, List.cons_perm_iff_perm_erase]

theorem msubset_iff_subperm [DecidableEq α] (l1 l2 : List α) : msubset l1 l2 ↔ l1.Subperm l2 := by
  rw [msubset_iff, List.subperm_ext_iff]
  constructor
  · intro h a _; exact h a
  · intro h a
    by_cases ha : a ∈ l1
    · exact h a ha
    · rw [List.count_eq_zero_of_not_mem ha]; exact Nat.zero_le _

theorem map_erase_perm [DecidableEq α] [DecidableEq β] (f : α → β) (el : α) (l : List α) (h : el ∈ l) :
    ((l.erase el).map f).Perm ((l.map f).erase (f el)) := by
  have h1 := (List.perm_cons_erase h).map f
  have h2 := h1.erase (f el)
  simpa using h2.symm

/-- The elements of a list below `n` and distinct are at most `n`. -/
theorem nodup_lt_length (l : List Nat) (n : Nat) (h : ∀ z ∈ l, z < n) (hn : l.Nodup) : l.length ≤ n := by
  have : l ⊆ List.range n := fun z hz => List.mem_range.2 (h z hz)
  simpa using (List.subperm_of_subset hn this).length_le

theorem nth_pos (d : α) (n : Int) (h : 0 ≤ n) (xs : List α) : nth d n xs = xs.getD n.toNat d := by
  obtain ⟨n, rfl⟩ := Int.eq_ofNat_of_zero_le h; rw [nth_nat]; rfl

theorem take_pos (n : Int) (h : 0 ≤ n) (xs : List α) : take n xs = xs.take n.toNat := by
  obtain ⟨n, rfl⟩ := Int.eq_ofNat_of_zero_le h; rw [take_nat]; rfl

theorem drop_pos (n : Int) (h : 0 ≤ n) (xs : List α) : drop n xs = xs.drop n.toNat := by
  obtain ⟨n, rfl⟩ := Int.eq_ofNat_of_zero_le h; rw [drop_nat]; rfl

theorem update_pos (n : Int) (h : 0 ≤ n) (v : α) (xs : List α) : update n v xs = xs.set n.toNat v := by
  obtain ⟨n, rfl⟩ := Int.eq_ofNat_of_zero_le h; rw [update_nat]; rfl

theorem take_zero (xs : List α) : take 0 xs = [] := by cases xs <;> simp [take]

theorem drop_zero (xs : List α) : drop 0 xs = xs := by cases xs <;> simp [drop]

theorem drop_drop' (n m : Int) (hn : 0 ≤ n) (hm : 0 ≤ m) (xs : List α) : drop n (drop m xs) = drop (n + m) xs := by
  rw [drop_pos n hn, drop_pos m hm, drop_pos _ (by omega), List.drop_drop]
  congr 1; omega

theorem take_succ_nth (d : α) (l : List α) (n : Int) (h0 : 0 ≤ n) (h1 : n < (l.length : Int)) :
    take (n + 1) l = take n l ++ [nth d n l] := by
  obtain ⟨n, rfl⟩ := Int.eq_ofNat_of_zero_le h0
  have e : ((n : Nat) : Int) + 1 = ((n + 1 : Nat) : Int) := by omega
  have hn : n < l.length := by omega
  rw [e, take_nat, take_nat, nth_nat, List.take_add_one, List.getD_eq_getElem?_getD, List.getElem?_eq_getElem hn]
  rfl

theorem drop_eq_nth_cons (d : α) (l : List α) (n : Int) (h0 : 0 ≤ n) (h1 : n < (l.length : Int)) :
    drop n l = nth d n l :: drop (n + 1) l := by
  obtain ⟨n, rfl⟩ := Int.eq_ofNat_of_zero_le h0
  have e : ((n : Nat) : Int) + 1 = ((n + 1 : Nat) : Int) := by omega
  have hn : n < l.length := by omega
  rw [e, drop_nat, drop_nat, nth_nat, List.drop_eq_getElem_cons hn, List.getD_eq_getElem?_getD, List.getElem?_eq_getElem hn]
  rfl

theorem take_long (l : List α) (n : Int) (h : (l.length : Int) ≤ n) : take n l = l := by
  rw [take_pos _ (by omega), List.take_of_length_le (by omega)]

theorem nth_long (d : α) (l : List α) (n : Int) (h : (l.length : Int) ≤ n) : nth d n l = d := by
  rw [nth_pos _ _ (by omega), List.getD_eq_getElem?_getD, List.getElem?_eq_none (by omega)]; rfl

theorem mem_take_succ (d : α) (l : List α) (n : Int) (z : α) (h : z ∈ take (n + 1) l) : z ∈ take n l ∨ z = nth d n l := by
  by_cases h0 : 0 ≤ n
  · by_cases h1 : n < (l.length : Int)
    · rw [take_succ_nth d l n h0 h1] at h; simpa using h
    · rw [take_long _ _ (by omega)] at h
      rw [take_long _ _ (by omega)]; exact Or.inl h
  · rw [take_neg _ (by omega)]
    by_cases h1 : n + 1 = 0
    · rw [h1, take_zero] at h; cases h
    · rw [take_neg _ (by omega)] at h; exact Or.inl h

theorem nth_erase [DecidableEq α] (d el : α) (l : List α) (i : Int) (h0 : 0 ≤ i) (hm : el ∈ l) (hi : indexOf el l ≠ i) :
    nth d i l = (if indexOf el l < i then nth d (i - 1) (l.erase el) else nth d i (l.erase el)) := by
  induction l generalizing i with
  | nil => cases hm
  | cons x xs ih =>
    by_cases hx : x = el
    · subst hx
      simp only [indexOf, if_true, List.erase_cons_head] at hi ⊢
      rw [if_pos (by omega)]
      simp only [nth]
      rw [if_neg (by omega)]
    · have hp : 0 ≤ indexOf el xs := by
        clear ih hm hi
        induction xs with
        | nil => simp [indexOf]
        | cons y ys ih => simp only [indexOf]; split <;> omega
      simp only [indexOf, hx, if_false] at hi ⊢
      rw [List.erase_cons_tail (by simpa using hx)]
      by_cases h00 : i = 0
      · subst h00
        rw [if_neg (by omega)]; simp [nth]
      · have := ih (i - 1) (by omega) (by simpa [Ne.symm hx] using hm) (by omega)
        simp only [nth, h00, if_false]
        rw [this]
        by_cases h5 : indexOf el xs < i - 1
        · rw [if_pos h5, if_pos (by omega), if_neg (by omega)]
        · rw [if_neg h5, if_neg (by omega)]

theorem update_erase [DecidableEq α] (i : Int) (el1 el2 : α) (l : List α) (h0 : 0 ≤ i) (hne : el1 ≠ el2) :
    (indexOf el2 l ≤ i → update i el1 (l.erase el2) = (update (i + 1) el1 l).erase el2) ∧
    (¬ indexOf el2 l ≤ i → update i el1 (l.erase el2) = (update i el1 l).erase el2) := by
  induction l generalizing i with
  | nil => simp [update]
  | cons x xs ih =>
    by_cases hx : x = el2
    · subst hx
      simp only [indexOf, if_true, List.erase_cons_head, h0, not_true_eq_false, false_implies, and_true, forall_const]
      simp only [update]
      rw [if_neg (by omega), List.erase_cons_head]
      congr 1; omega
    · simp only [indexOf, hx, if_false]
      rw [List.erase_cons_tail (by simpa using hx)]
      have hp : 0 ≤ indexOf el2 xs := by
        clear ih
        induction xs with
        | nil => simp [indexOf]
        | cons y ys ih => simp only [indexOf]; split <;> omega
      by_cases h00 : i = 0
      · subst h00
        refine ⟨fun h => absurd h (by omega), fun _ => ?_⟩
        simp only [update, if_true]
        rw [List.erase_cons_tail (by simpa using hne)]
      · have := ih (i - 1) (by omega)
        simp only [update, h00, if_false]
        rw [if_neg (by omega)]
        rw [List.erase_cons_tail (by simpa using hx), List.erase_cons_tail (by simpa using hx)]
        refine ⟨fun h => ?_, fun h => ?_⟩
        · rw [this.1 (by omega)]; congr 3; omega
        · rw [this.2 (by omega)]

theorem filterIdx_ge (xs : List α) (idx : Int) (fp : α → Bool) : ∀ z ∈ filterIdx xs idx fp, idx ≤ z := by
  induction xs generalizing idx with
  | nil => simp [filterIdx]
  | cons x xs ih =>
    intro z hz
    unfold filterIdx at hz
    split at hz
    · rcases List.mem_cons.1 hz with rfl | hz
      · exact Int.le_refl _
      · have := ih (idx + 1) z hz; omega
    · have := ih (idx + 1) z hz; omega

theorem filterIdx_nodup (xs : List α) (idx : Int) (fp : α → Bool) : (filterIdx xs idx fp).Nodup := by
  induction xs generalizing idx with
  | nil => simp [filterIdx]
  | cons x xs ih =>
    unfold filterIdx
    split
    · refine List.nodup_cons.2 ⟨fun h => ?_, ih _⟩
      have := filterIdx_ge xs (idx + 1) fp idx h; omega
    · exact ih _

theorem filterIdx_mem (d : α) (xs : List α) (idx i : Int) (fp : α → Bool) (h : i + idx ∈ filterIdx xs idx fp) :
    fp (nth d i xs) = true := by
  induction xs generalizing idx i with
  | nil => simp [filterIdx] at h
  | cons x xs ih =>
    have hs : i - 1 + (idx + 1) = i + idx := by omega
    have hg := filterIdx_ge xs (idx + 1) fp (i + idx)
    unfold filterIdx at h
    simp only [nth]
    by_cases h0 : i = 0
    · subst h0
      split at h
      · simp [*]
      · have := hg h; omega
    · rw [if_neg h0]
      apply ih (idx + 1) (i - 1)
      rw [hs]
      split at h
      · rcases List.mem_cons.1 h with h | h
        · omega
        · exact h
      · exact h

theorem filterIdx_length (xs : List α) (idx : Int) (fp : α → Bool) : (filterIdx xs idx fp).length = xs.countP fp := by
  induction xs generalizing idx with
  | nil => simp [filterIdx]
  | cons x xs ih => unfold filterIdx; split <;> simp [*]

theorem splitVarlim_eq (xs : List α) (n : Int) (hn : 0 ≤ n) (limits : List Int) :
    splitVarlim xs n limits = (List.range limits.length).map (fun k : Nat => take (limits.getD k 0) (drop (n * k) xs)) := by
  induction limits generalizing xs with
  | nil => rfl
  | cons l ls ih =>
    rw [splitVarlim, ih, List.length_cons, List.range_succ_eq_map, List.map_cons, List.map_map]
    congr 1
    · simp [drop_zero]
    · apply List.map_congr_left; intro i _
      simp only [Function.comp, List.getD_cons_succ]
      rw [drop_drop' _ _ (Int.mul_nonneg hn (by omega)) hn]
      congr 2
      push_cast; rw [Int.mul_add, Int.mul_one]

theorem split_eq_varlim (xs : List α) (n : Int) (nb : Nat) : split xs nb n = splitVarlim xs n (List.replicate nb n) := by
  induction nb generalizing xs with
  | zero => rfl
  | succ nb ih => rw [split, ih, List.replicate_succ, splitVarlim]

theorem split_eq (xs : List α) (n : Int) (hn : 0 ≤ n) (nb : Nat) :
    split xs nb n = (List.range nb).map (fun k : Nat => take n (drop (n * k) xs)) := by
  rw [split_eq_varlim, splitVarlim_eq _ _ hn, List.length_replicate]
  apply List.map_congr_left; intro i hi
  have : (List.replicate nb n).getD i 0 = n := by
    rw [List.getD_eq_getElem?_getD, List.getElem?_replicate, if_pos (List.mem_range.1 hi)]; rfl
  rw [this]

theorem nth_map_range (dl : List α) (f : Nat → List α) (m : Nat) (j : Int) (h0 : 0 ≤ j) (h1 : j < (m : Int)) :
    nth dl j ((List.range m).map f) = f j.toNat := by
  rw [nth_pos _ _ h0, List.getD_eq_getElem?_getD, List.getElem?_map, List.getElem?_range (by omega)]
  rfl

theorem take_drop_length (xs : List α) (n s : Int) (hn : 0 ≤ n) (hs : 0 ≤ s) (h : s + n ≤ (xs.length : Int)) :
    ((take n (drop s xs)).length : Int) = n := by
  rw [take_pos _ hn, drop_pos _ hs, List.length_take, List.length_drop]; omega

theorem nth_take_drop (d : α) (xs : List α) (n s i : Int) (hn : i < n) (hi : 0 ≤ i) (hs : 0 ≤ s) :
    nth d i (take n (drop s xs)) = nth d (s + i) xs := by
  rw [take_pos _ (by omega), drop_pos _ hs, nth_pos _ _ hi, nth_pos _ _ (by omega), List.getD_eq_getElem?_getD,
    List.getD_eq_getElem?_getD, List.getElem?_take, if_pos (by omega), List.getElem?_drop]
  congr 2; omega

theorem take_drop_update (xs : List α) (n s p : Int) (v : α) (hn : 0 ≤ n) (hs : 0 ≤ s) (h : p < s ∨ s + n ≤ p) :
    take n (drop s (update p v xs)) = take n (drop s xs) := by
  by_cases hp : 0 ≤ p
  · rw [take_pos _ hn, drop_pos _ hs, update_pos _ hp, take_pos _ hn, drop_pos _ hs]
    apply List.ext_getElem?
    intro i
    rw [List.getElem?_take, List.getElem?_take]
    split
    · rw [List.getElem?_drop, List.getElem?_drop, List.getElem?_set_ne (by omega)]
    · rfl
  · rw [update_neg _ (by omega)]

theorem nthI (d : Int) (l : List Int) (j : Int) (h0 : 0 ≤ j) (h1 : j < (l.length : Int)) : l.getD j.toNat 0 = nth d j l := by
  rw [nth_pos _ _ h0, List.getD_eq_getElem?_getD, List.getD_eq_getElem?_getD, List.getElem?_eq_getElem (by omega)]
  rfl

theorem splitVarlim_update (d : Int) (xs : List α) (limits : List Int) (n i j : Int) (v : α)
    (hl : nth d j limits ≤ i) (hge : ∀ z ∈ limits, 0 ≤ z) (hle : ∀ z ∈ limits, z ≤ n) (hi : 0 ≤ i) (hin : i < n)
    (hj : 0 ≤ j) (hj1 : j < (limits.length : Int)) :
    splitVarlim xs n limits = splitVarlim (update (n * j + i) v xs) n limits := by
  rw [splitVarlim_eq _ _ (by omega), splitVarlim_eq _ _ (by omega)]
  apply List.map_congr_left; intro k hk
  have hk := List.mem_range.1 hk
  have hm : limits.getD k 0 ∈ limits := by
    rw [List.getD_eq_getElem?_getD, List.getElem?_eq_getElem hk]; exact List.getElem_mem _
  have hlk : (k : Int) = j → limits.getD k 0 ≤ i := by
    intro e
    have := nthI d limits k (by omega) (by omega)
    rw [Int.toNat_natCast] at this
    rw [this, e]; exact hl
  have h1 := hge _ hm
  have h2 := hle _ hm
  generalize limits.getD k 0 = l at *
  refine (take_drop_update xs l (n * k) (n * j + i) v h1 (Int.mul_nonneg (by omega) (by omega)) ?_).symm
  rcases Int.lt_trichotomy k j with h | h | h
  · right
    have : n * ((k : Int) + 1) ≤ n * j := Int.mul_le_mul_of_nonneg_left (by omega) (by omega)
    rw [Int.mul_add] at this; omega
  · right; have := hlk h; rw [h]; omega
  · left
    have : n * (j + 1) ≤ n * (k : Int) := Int.mul_le_mul_of_nonneg_left (by omega) (by omega)
    rw [Int.mul_add] at this; omega

theorem integersList_eq (n : Nat) (ix : Int) : integersList n ix = (List.range n).map (fun i : Nat => ix + i) := by
  induction n generalizing ix with
  | zero => rfl
  | succ n ih =>
    rw [integersList, ih, List.range_succ_eq_map, List.map_cons, List.map_map]
    congr 1
    · simp
    · apply List.map_congr_left; intro i _; simp only [Function.comp]; omega

theorem allEq_iff (v : α) (l : List α) : allEq v l ↔ ∀ x ∈ l, x = v := by
  induction l with
  | nil => simp [allEq]
  | cons x l ih => simp [allEq, ih]

theorem rep_eq (x : α) (n : Nat) : rep x n = List.replicate n x := by
  induction n with
  | zero => rfl
  | succ n ih => rw [rep, ih, List.replicate_succ]

theorem flatten_eq (l : List (List α)) : flatten l = l.flatten := by
  induction l with
  | nil => rfl
  | cons x l ih => rw [flatten, ih, List.flatten_cons]

theorem zip_eq (xs : List α) (ys : List β) : zip xs ys = List.zip xs ys := by
  induction xs generalizing ys with
  | nil => simp [zip]
  | cons x xs ih => cases ys <;> simp [zip, ih]

end

end Verif.ListLib
