/-
C91: the lemmas of /repo/env/include/proof/set.gh, multiset.gh and multisubset.gh are true.
C92: those of listexex.gh are.
C93: those of listutils-lemmas.gh and natlist.gh are.
-/
import Verif.Spec.ListLib

set_option autoImplicit false
set_option linter.unusedDecidableInType false
set_option linter.unusedSimpArgs false

namespace Verif.Props
open Verif.Buckets Verif.ListLib

/-- C91, set.gh: lists as sets. -/
theorem C91_sets {α β : Type} [DecidableEq α] [DecidableEq β] :
    -- set.gh:7-9 subset_remove
    (∀ (xs ys : List α) (el : α), xs ⊆ ys → xs.erase el ⊆ ys) ∧
    -- set.gh:18-21 remove_subset
    (∀ (xs : List α) (el : α) (ys : List α), xs ⊆ ys → el ∉ xs → xs ⊆ ys.erase el) ∧
    -- set.gh:31-34 remove_both_subset
    (∀ (el : α) (xs ys : List α), xs ⊆ ys → el ∉ xs.erase el → xs.erase el ⊆ ys.erase el) ∧
    -- set.gh:40-42 subset_remove_unrelevant
    (∀ (xs ys : List α) (el : α), xs ⊆ ys → el ∉ xs → xs ⊆ ys.erase el) ∧
    -- set.gh:48-50 subset_append
    (∀ (xs ys zs : List α), xs ⊆ zs → ys ⊆ zs → xs ++ ys ⊆ zs) ∧
    -- set.gh:59-61 subset_append2
    (∀ (xs ys zs : List α), xs ⊆ ys → xs ⊆ ys ++ zs) ∧
    -- set.gh:70-72 subset_append3
    (∀ (xs ys zs : List α), xs ⊆ zs → xs ⊆ ys ++ zs) ∧
    -- set.gh:81-83 remove_extra_preserves_subset
    (∀ (xs ys : List α) (el : α), xs ⊆ ys → el ∈ ys.erase el → xs ⊆ ys.erase el) ∧
    -- set.gh:93-95 add_extra_preserves_subset
    (∀ (xs ys : List α) (el : α), xs ⊆ ys → xs ⊆ el :: ys) ∧
    -- set.gh:104-106 subset_unremove
    (∀ (xs ys : List α) (el : α), xs.erase el ⊆ ys → xs ⊆ el :: ys) ∧
    -- set.gh:116-118 subset_mem_trans
    (∀ (xs ys : List α) (el : α), xs ⊆ ys → el ∈ xs → el ∈ ys) ∧
    -- set.gh:127-130 subset_disjoint
    (∀ (l1 l2 l3 : List α), l1 ⊆ l2 → disjoint l2 l3 → disjoint l1 l3) ∧
    -- set.gh:143-146 distinct2_subset_sublen
    (∀ (xs ys : List α), xs.Nodup → xs ⊆ ys → (xs.length : Int) ≤ (ys.length : Int)) ∧
    -- set.gh:156-160 distinct_superset
    (∀ (xs ys : List α), xs ⊆ ys → xs.Nodup → ∃ result : List α, xs ⊆ result ∧ result ⊆ ys ∧ result.Nodup ∧
      (result.length : Int) ≤ (ys.length : Int)) ∧
    -- set.gh:187-190 distinct_subset_sublen
    (∀ (xs ys : List α), xs.Nodup → xs ⊆ ys → (xs.length : Int) ≤ (ys.length : Int)) ∧
    -- set.gh:195-197 subset_push_to_the_end
    (∀ (xs ys : List α) (el : α), xs ⊆ ys → xs ⊆ ys.erase el ++ [el]) ∧
    -- set.gh:210-212 push_to_the_end_subset
    (∀ (xs ys : List α) (el : α), xs ⊆ ys → el ∈ ys → xs.erase el ++ [el] ⊆ ys) ∧
    -- set.gh:218-220 subset_forall
    (∀ (xs ys : List α) (p : α → Bool), xs ⊆ ys → (∀ z ∈ ys, p z = true) → (∀ z ∈ xs, p z = true)) ∧
    -- set.gh:230-234 subset_append_distinct
    (∀ (xs ys zs : List α), xs ⊆ ys → xs.Nodup → (ys ++ zs).Nodup → (xs ++ zs).Nodup) ∧
    -- set.gh:249-251 subset_map
    (∀ (l1 l2 : List α) (f : α → β), l1 ⊆ l2 → l1.map f ⊆ l2.map f) ∧
    -- set.gh:261-263 filter_subset
    (∀ (f : α → Bool) (l : List α), l.filter f ⊆ l) ∧
    -- set.gh:278-283 append_both_subset
    (∀ (xs ys zs : List α), xs ⊆ zs → xs ++ ys ⊆ zs ++ ys ∧ xs ++ ys ⊆ ys ++ zs ∧ ys ++ xs ⊆ zs ++ ys ∧ ys ++ xs ⊆ ys
      ++ zs) ∧
    -- set.gh:300-304 set_eq_remove_uniq_both
    (∀ (l1 l2 : List α) (x : α), setEq l1 l2 → x ∉ l1.erase x → x ∉ l2.erase x → setEq (l1.erase x) (l2.erase x)) ∧
    -- set.gh:310-314 set_eq_remove_both
    (∀ (l1 l2 : List α) (x : α), setEq l1 l2 → l1.Nodup → l2.Nodup → setEq (l1.erase x) (l2.erase x)) ∧
    -- set.gh:321-323 subset_nil_nil
    (∀ (l : List α), l ⊆ [] → l = []) ∧
    -- set.gh:331-336 set_eq_distinct_same_len
    (∀ (l1 l2 : List α), setEq l1 l2 → l1.Nodup → l2.Nodup → (l1.length : Int) = (l2.length : Int)) ∧
    -- set.gh:348-351 set_eq_forall_both
    (∀ (l1 l2 : List α) (p : α → Bool), setEq l1 l2 → ((∀ z ∈ l1, p z = true) ↔ (∀ z ∈ l2, p z = true))) ∧
    -- set.gh:361-364 content_eq_map
    (∀ (l1 l2 : List α) (f : α → β), setEq l1 l2 → setEq (l1.map f) (l2.map f)) ∧
    -- set.gh:370-374 distinct_shorter_than_nondistinct
    (∀ (l1 l2 : List α), l1 ⊆ l2 → l1.Nodup → ¬ l2.Nodup → (l1.length : Int) < (l2.length : Int)) ∧
    -- set.gh:395-397 set_eq_same_len_distinct_both
    (∀ (l1 l2 : List α), setEq l1 l2 → (l1.length : Int) = (l2.length : Int) → (l1.Nodup ↔ l2.Nodup)) ∧
    -- set.gh:407-410 intersection_subset
    (∀ (l1 l2 : List α), intersection l1 l2 ⊆ l1 ∧ intersection l1 l2 ⊆ l2) ∧
    -- set.gh:424-426 subset_unremove_outer
    (∀ (xs ys : List α) (el : α), xs ⊆ ys.erase el → xs ⊆ ys) ∧
    -- set.gh:438-440 set_eq_trans
    (∀ (s1 s2 s3 : List α), setEq s1 s2 → setEq s2 s3 → setEq s1 s3) ∧
    -- set.gh:446-448 set_eq_cons
    (∀ (l1 l2 : List α) (el : α), setEq l1 l2 → setEq (el :: l1) (el :: l2)) := by
  refine ⟨?_, ?_, ?_, ?_, ?_, ?_, ?_, ?_, ?_, ?_, ?_, ?_, ?_, ?_, ?_, ?_, ?_, ?_, ?_, ?_, ?_, ?_, ?_, ?_, ?_, ?_, ?_,
    ?_, ?_, ?_, ?_, ?_, ?_, ?_⟩
  · intros
    grind [setEq, disj_iff, head, tail]
  · intros
    grind [setEq, disj_iff, head, tail]
  · intros
    grind [setEq, disj_iff, head, tail]
  · intros
    grind [setEq, disj_iff, head, tail]
  · intros
    grind [setEq, disj_iff, head, tail]
  · intros
    grind [setEq, disj_iff, head, tail]
  · intros
    grind [setEq, disj_iff, head, tail]
  · intros
    grind [setEq, disj_iff, head, tail]
  · intros
    grind [setEq, disj_iff, head, tail]
  · intros
    grind [setEq, disj_iff, head, tail]
  · intros
    grind [setEq, disj_iff, head, tail]
  · intros
    grind [setEq, disj_iff, head, tail]
  · intro xs ys h1 h2
    exact_mod_cast (List.subperm_of_subset h1 h2).length_le
  · intro xs ys h1 h2
    exact ⟨xs, List.Subset.refl _, h1, h2, by exact_mod_cast (List.subperm_of_subset h2 h1).length_le⟩
  · intro xs ys h1 h2
    exact_mod_cast (List.subperm_of_subset h1 h2).length_le
  · intros
    grind [setEq, disj_iff, head, tail]
  · intros
    grind [setEq, disj_iff, head, tail]
  · intros
    grind [setEq, disj_iff, head, tail]
  · intros
    grind [setEq, disj_iff, head, tail]
  · intros
    grind [setEq, disj_iff, head, tail]
  · intros
    grind [setEq, disj_iff, head, tail]
  · intros
    grind [setEq, disj_iff, head, tail]
  · intros
    grind [setEq, disj_iff, head, tail]
  · intros
    grind [setEq, disj_iff, head, tail]
  · intro l h
    exact List.subset_nil.1 h
  · rintro l1 l2 ⟨a, b⟩ h1 h2
    have := (List.subperm_of_subset h1 a).length_le
    have := (List.subperm_of_subset h2 b).length_le
    omega
  · intros
    grind [setEq, disj_iff, head, tail]
  · intros
    grind [setEq, disj_iff, head, tail]
  · intro l1 l2 h1 h2 h3
    by_contra h
    exact h3 (((List.subperm_of_subset h2 h1).perm_of_length_le (by omega)).nodup_iff.1 h2)
  · rintro l1 l2 ⟨a, b⟩ h
    exact ⟨fun h1 => ((List.subperm_of_subset h1 a).perm_of_length_le (by omega)).nodup_iff.1 h1, fun h1 =>
        ((List.subperm_of_subset h1 b).perm_of_length_le (by omega)).nodup_iff.1 h1⟩
  · intro l1 l2
    exact ⟨fun z h => ((mem_intersection z l1 l2).1 h).1, fun z h => ((mem_intersection z l1 l2).1 h).2⟩
  · intros
    grind [setEq, disj_iff, head, tail]
  · intros
    grind [setEq, disj_iff, head, tail]
  · intros
    grind [setEq, disj_iff, head, tail]

/-- The hypotheses of the lemmas hold of lists that differ in their order and repetitions: `set_eq_remove_uniq_both`,
`distinct_shorter_than_nondistinct` and `subset_append_distinct`. -/
example :
    (setEq [1, 2, 3] [3, 1, 1, 2] ∧ 2 ∉ [1, 2, 3].erase 2 ∧ 2 ∉ [3, 1, 1, 2].erase 2) ∧
    ([1, 2, 3] ⊆ [3, 1, 1, 2] ∧ [1, 2, 3].Nodup ∧ ¬ [3, 1, 1, 2].Nodup) ∧
    ([1, 2] ⊆ [2, 3, 1] ∧ [1, 2].Nodup ∧ ([2, 3, 1] ++ [4, 5]).Nodup) := by
  unfold setEq; decide

/-- C91, multiset.gh: lists as multisets. -/
theorem C91_multisets {α β : Type} [DecidableEq α] [DecidableEq β] :
    -- multiset.gh:15-18 multiset_eq_unremove
    (∀ (l1 l2 : List α) (x : α), x ∈ l1 → multisetEq (l1.erase x) l2 → multisetEq l1 (x :: l2)) ∧
    -- multiset.gh:27-29 multiset_eq_comm
    (∀ (l1 l2 : List α), multisetEq l1 l2 → multisetEq l2 l1) ∧
    -- multiset.gh:41-43 multiset_eq_msubset_rec
    (∀ (l1 l2 : List α), multisetEq l1 l2 → msubset l1 l2) ∧
    -- multiset.gh:52-55 multiset_eq_msubset
    (∀ (l1 l2 : List α), multisetEq l1 l2 → msubset l1 l2 ∧ msubset l2 l1) ∧
    -- multiset.gh:62-65 msubset_multiset_eq
    (∀ (l1 l2 : List α), msubset l1 l2 → msubset l2 l1 → multisetEq l1 l2) ∧
    -- multiset.gh:76-78 multiset_eq_subset
    (∀ (l1 l2 : List α), multisetEq l1 l2 → l1 ⊆ l2) ∧
    -- multiset.gh:90-92 multiset_eq_set_eq
    (∀ (l1 l2 : List α), multisetEq l1 l2 → setEq l1 l2) ∧
    -- multiset.gh:99-103 distinct_set_eq_multiset_eq
    (∀ (l1 l2 : List α), setEq l1 l2 → l1.Nodup → l2.Nodup → multisetEq l1 l2) ∧
    -- multiset.gh:117-119 multiset_eq_refl
    (∀ (l : List α), multisetEq l l) ∧
    -- multiset.gh:128-130 cons_in_the_middle_multiset_eq
    (∀ (l1 l2 : List α) (x : α), multisetEq (l1 ++ (x :: l2)) (x :: (l1 ++ l2))) ∧
    -- multiset.gh:140-142 multiset_eq_same_len
    (∀ (l1 l2 : List α), multisetEq l1 l2 → (l1.length : Int) = (l2.length : Int)) ∧
    -- multiset.gh:152-154 multiset_eq_append_both
    (∀ (l1 l2 l3 : List α), multisetEq l1 l2 → multisetEq (l1 ++ l3) (l2 ++ l3)) ∧
    -- multiset.gh:167-169 multiset_eq_lift_element
    (∀ (el : α) (l : List α), el ∈ l → multisetEq (el :: l.erase el) l) ∧
    -- multiset.gh:182-184 multiset_eq_mem
    (∀ (x : α) (l1 l2 : List α), multisetEq l1 l2 → ((x ∈ l1) ↔ (x ∈ l2))) ∧
    -- multiset.gh:196-198 multiset_eq_remove
    (∀ (l1 l2 : List α) (el : α), multisetEq l1 l2 → multisetEq (l1.erase el) (l2.erase el)) ∧
    -- multiset.gh:211-214 multiset_eq_trans
    (∀ (l1 l2 l3 : List α), multisetEq l1 l2 → multisetEq l2 l3 → multisetEq l1 l3) ∧
    -- multiset.gh:226-230 multiset_eq_map_remove_swap
    (∀ (f : α → β) (el : α) (l : List α), el ∈ l → multisetEq ((l.erase el).map f) ((l.map f).erase (f el))) ∧
    -- multiset.gh:254-258 multiset_eq_map
    (∀ (f : α → β) (l1 l2 : List α), multisetEq l1 l2 → multisetEq (l1.map f) (l2.map f)) ∧
    -- multiset.gh:271-273 multiset_eq_distinct
    (∀ (l1 l2 : List α), multisetEq l1 l2 → (l1.Nodup ↔ l2.Nodup)) ∧
    -- multiset.gh:287-289 multiset_eq_forall
    (∀ (l1 l2 : List α) (f : α → Bool), multisetEq l1 l2 → ((∀ z ∈ l1, f z = true) ↔ (∀ z ∈ l2, f z = true))) ∧
    -- multiset.gh:304-307 multiset_eq_append_assoc
    (∀ (l1 l2 l3 : List α), multisetEq ((l1 ++ l2) ++ l3) (l1 ++ (l2 ++ l3))) ∧
    -- multiset.gh:320-324 multiset_eq_append
    (∀ (l1 l2 l3 l4 : List α), multisetEq l1 l2 → multisetEq l3 l4 → multisetEq (l1 ++ l3) (l2 ++ l4)) ∧
    -- multiset.gh:336-338 multiset_eq_append_comm
    (∀ (l1 l2 : List α), multisetEq (l1 ++ l2) (l2 ++ l1)) ∧
    -- multiset.gh:348-353 multiset_eq_map_cons_remove
    (∀ (f : α → β) (l : List α) (x y : α), x ∈ l → f x = f y → multisetEq (l.map f) ((y :: l.erase x).map f)) ∧
    -- multiset.gh:367-371 map_remove_swap
    (∀ (f : α → β) (x : α) (l : List α), x ∈ l → multisetEq ((l.map f).erase (f x)) ((l.erase x).map f)) ∧
    -- multiset.gh:388-391 multiset_eq_lift_element_append
    (∀ (el : α) (l1 l2 : List α), el ∈ l2 → multisetEq (l1 ++ l2) ((el :: l1) ++ l2.erase el)) ∧
    -- multiset.gh:402-405 multiset_remove_append_swap
    (∀ (x : α) (l1 l2 : List α), x ∈ l2 → multisetEq ((l1 ++ l2).erase x) (l1 ++ l2.erase x)) ∧
    -- multiset.gh:425-427 multiset_eq_cons_both
    (∀ (l1 l2 : List α) (x : α), multisetEq l1 l2 → multisetEq (x :: l1) (x :: l2)) := by
  refine ⟨?_, ?_, ?_, ?_, ?_, ?_, ?_, ?_, ?_, ?_, ?_, ?_, ?_, ?_, ?_, ?_, ?_, ?_, ?_, ?_, ?_, ?_, ?_, ?_, ?_, ?_, ?_,
    ?_⟩
  · simp only [multisetEq_iff, List.perm_iff_count, msubset_iff]
    intros
    grind [List.count_filter, List.count_pos_iff]
  · simp only [multisetEq_iff, List.perm_iff_count, msubset_iff]
    intros
    grind [List.count_filter, List.count_pos_iff]
  · simp only [multisetEq_iff, List.perm_iff_count, msubset_iff]
    intros
    grind [List.count_filter, List.count_pos_iff]
  · simp only [multisetEq_iff, List.perm_iff_count, msubset_iff]
    intros
    grind [List.count_filter, List.count_pos_iff]
  · simp only [multisetEq_iff, List.perm_iff_count, msubset_iff]
    intros
    grind [List.count_filter, List.count_pos_iff]
  · simp only [multisetEq_iff, msubset_iff_subperm]
    intros
    grind [List.Perm.map, List.Subperm.map, List.Perm.nodup_iff, List.Subperm.length_le]
  · simp only [multisetEq_iff]
    exact fun l1 l2 h => ⟨h.subset, h.symm.subset⟩
  · simp only [multisetEq_iff]
    exact fun l1 l2 h h1 h2 => (List.perm_ext_iff_of_nodup h1 h2).2 fun a => ⟨fun x => h.1 x, fun x => h.2 x⟩
  · simp only [multisetEq_iff, List.perm_iff_count, msubset_iff]
    intros
    grind [List.count_filter, List.count_pos_iff]
  · simp only [multisetEq_iff, List.perm_iff_count, msubset_iff]
    intros
    grind [List.count_filter, List.count_pos_iff]
  · simp only [multisetEq_iff]
    exact fun l1 l2 h => by rw [h.length_eq]
  · simp only [multisetEq_iff, List.perm_iff_count, msubset_iff]
    intros
    grind [List.count_filter, List.count_pos_iff]
  · simp only [multisetEq_iff, List.perm_iff_count, msubset_iff]
    intros
    grind [List.count_filter, List.count_pos_iff]
  · simp only [multisetEq_iff, msubset_iff_subperm]
    intros
    grind [List.Perm.map, List.Subperm.map, List.Perm.nodup_iff, List.Subperm.length_le]
  · simp only [multisetEq_iff, List.perm_iff_count, msubset_iff]
    intros
    grind [List.count_filter, List.count_pos_iff]
  · simp only [multisetEq_iff, List.perm_iff_count, msubset_iff]
    intros
    grind [List.count_filter, List.count_pos_iff]
  · simp only [multisetEq_iff]
    exact fun f el l h => map_erase_perm f el l h
  · simp only [multisetEq_iff, msubset_iff_subperm]
    intros
    grind [List.Perm.map, List.Subperm.map, List.Perm.nodup_iff, List.Subperm.length_le]
  · simp only [multisetEq_iff, List.perm_iff_count, msubset_iff]
    intros
    grind [List.count_filter, List.count_pos_iff]
  · simp only [multisetEq_iff, msubset_iff_subperm]
    intros
    grind [List.Perm.map, List.Subperm.map, List.Perm.nodup_iff, List.Subperm.length_le]
  · simp only [multisetEq_iff, List.perm_iff_count, msubset_iff]
    intros
    grind [List.count_filter, List.count_pos_iff]
  · simp only [multisetEq_iff, List.perm_iff_count, msubset_iff]
    intros
    grind [List.count_filter, List.count_pos_iff]
  · simp only [multisetEq_iff, List.perm_iff_count, msubset_iff]
    intros
    grind [List.count_filter, List.count_pos_iff]
  · simp only [multisetEq_iff]
    intro f l x y h1 h2
    have := (List.perm_cons_erase h1).map f
    simpa [h2] using this
  · simp only [multisetEq_iff]
    exact fun f el l h => (map_erase_perm f el l h).symm
  · simp only [multisetEq_iff, List.perm_iff_count, msubset_iff]
    intros
    grind [List.count_filter, List.count_pos_iff]
  · simp only [multisetEq_iff, List.perm_iff_count, msubset_iff]
    intros
    grind [List.count_filter, List.count_pos_iff]
  · simp only [multisetEq_iff, List.perm_iff_count, msubset_iff]
    intros
    grind [List.count_filter, List.count_pos_iff]

/-- The hypotheses of `multiset_eq_trans`, `multiset_eq_unremove` and `multiset_eq_map_cons_remove` hold, and lists with other
repetitions are not equal as multisets. -/
example :
    (multisetEq [1, 2, 2] [2, 1, 2] ∧ multisetEq [2, 1, 2] [2, 2, 1]) ∧
    (2 ∈ [1, 2, 2] ∧ multisetEq ([1, 2, 2].erase 2) [2, 1]) ∧
    (5 ∈ [4, 5] ∧ (fun n => n / 4) 5 = (fun n => n / 4) 6) ∧
    ¬ multisetEq [1, 2, 2] [1, 1, 2] := by
  simp only [multisetEq_iff]; decide

/-- C91, multisubset.gh: inclusion of lists as multisets. -/
theorem C91_multisubsets {α β : Type} [DecidableEq α] [DecidableEq β] :
    -- multisubset.gh:15-17 msubset_refl
    (∀ (l : List α), msubset l l) ∧
    -- multisubset.gh:27-29 msubset_of_nil
    (∀ (l : List α), msubset l [] → l = []) ∧
    -- multisubset.gh:37-42 msubset_remove_cons_swap
    (∀ (x y : α) (l : List α), x ∈ l → msubset ((y :: l).erase x) (y :: l.erase x) ∧ msubset (y :: l.erase x) ((y ::
      l).erase x)) ∧
    -- multisubset.gh:59-61 msubset_remove
    (∀ (l1 l2 : List α) (x : α), msubset l1 l2 → msubset (l1.erase x) (l2.erase x)) ∧
    -- multisubset.gh:76-79 msubset_unremove
    (∀ (l1 l2 : List α) (x : α), x ∈ l2 → msubset (l1.erase x) (l2.erase x) → msubset l1 l2) ∧
    -- multisubset.gh:95-97 msubset_subset
    (∀ (l1 l2 : List α), msubset l1 l2 → l1 ⊆ l2) ∧
    -- multisubset.gh:108-110 msubset_trans
    (∀ (l1 l2 l3 : List α), msubset l1 l2 → msubset l2 l3 → msubset l1 l3) ∧
    -- multisubset.gh:122-124 msubset_cons_preserves
    (∀ (l1 l2 : List α) (x : α), msubset l1 l2 → msubset l1 (x :: l2)) ∧
    -- multisubset.gh:137-139 filter_msubset
    (∀ (f : α → Bool) (l : List α), msubset (l.filter f) l) ∧
    -- multisubset.gh:154-156 msubset_distinct
    (∀ (l1 l2 : List α), msubset l1 l2 → l2.Nodup → l1.Nodup) ∧
    -- multisubset.gh:172-174 msubset_unremove_outer
    (∀ (l1 l2 : List α) (el : α), msubset l1 (l2.erase el) → msubset l1 l2) ∧
    -- multisubset.gh:194-196 msubset_remove_lesser
    (∀ (l1 l2 : List α) (x : α), msubset l1 l2 → msubset (l1.erase x) l2) ∧
    -- multisubset.gh:210-213 msubset_map_remove_swap
    (∀ (el : α) (l : List α) (f : α → β), el ∈ l → msubset ((l.erase el).map f) ((l.map f).erase (f el))) ∧
    -- multisubset.gh:236-238 msubset_map
    (∀ (f : α → β) (l1 l2 : List α), msubset l1 l2 → msubset (l1.map f) (l2.map f)) ∧
    -- multisubset.gh:251-253 msubset_append_left
    (∀ (l1 l2 : List α), msubset l1 (l1 ++ l2)) ∧
    -- multisubset.gh:262-264 msubset_append_right
    (∀ (l1 l2 : List α), msubset l2 (l1 ++ l2)) ∧
    -- multisubset.gh:275-278 msubset_append
    (∀ (l1 l2 : List α), msubset l1 (l1 ++ l2) ∧ msubset l2 (l1 ++ l2)) ∧
    -- multisubset.gh:284-288 msubset_append_both
    (∀ (l1 l2 l3 l4 : List α), msubset l1 l3 → msubset l2 l4 → msubset (l1 ++ l2) (l3 ++ l4)) ∧
    -- multisubset.gh:303-306 msubset_forall
    (∀ (l1 l2 : List α) (f : α → Bool), msubset l1 l2 → (∀ z ∈ l2, f z = true) → (∀ z ∈ l1, f z = true)) ∧
    -- multisubset.gh:317-320 msubset_lift_cons
    (∀ (l1 l2 : List α) (el : α), msubset (el :: (l1 ++ l2)) (l1 ++ (el :: l2))) ∧
    -- multisubset.gh:330-332 msubset_bury_cons
    (∀ (l1 l2 : List α) (el : α), msubset (l1 ++ (el :: l2)) (el :: (l1 ++ l2))) ∧
    -- multisubset.gh:342-347 msubset_move_cons_to_the_middle_keep
    (∀ (l1 l2 l3 : List α) (el : α), msubset l1 ((el :: l2) ++ l3) → msubset l1 (l2 ++ (el :: l3))) ∧
    -- multisubset.gh:377-382 msubset_remove_append_cons_keep
    (∀ (l1 l2 l3 : List α) (el : α), msubset l1 (l2 ++ l3) → msubset l1 ((l2 ++ (el :: l3)).erase el)) ∧
    -- multisubset.gh:401-403 msubset_append_swap
    (∀ (l1 l2 : List α), msubset (l1 ++ l2) (l2 ++ l1)) ∧
    -- multisubset.gh:417-419 msubset_length
    (∀ (l1 l2 : List α), msubset l1 l2 → (l1.length : Int) ≤ (l2.length : Int)) ∧
    -- multisubset.gh:428-430 msubset_push_to_the_end_self
    (∀ (xs : List α) (el : α), msubset xs (xs.erase el ++ [el])) ∧
    -- multisubset.gh:450-452 msubset_push_to_the_end
    (∀ (xs ys : List α) (el : α), msubset xs ys → msubset xs (ys.erase el ++ [el])) ∧
    -- multisubset.gh:471-473 push_to_the_end_msubset
    (∀ (xs ys : List α) (el : α), msubset xs ys → el ∈ xs → msubset (xs.erase el ++ [el]) ys) ∧
    -- multisubset.gh:487-489 pull_to_start_msubset
    (∀ (xs : List α) (el : α), msubset xs (el :: xs.erase el)) ∧
    -- multisubset.gh:502-504 pull_to_start_msubset2
    (∀ (xs : List α) (el : α), el ∈ xs → msubset (el :: xs.erase el) xs) ∧
    -- multisubset.gh:517-519 msubset_filter
    (∀ (f : α → Bool) (l1 l2 : List α), msubset l1 l2 → msubset (l1.filter f) (l2.filter f)) ∧
    -- multisubset.gh:536-538 distinct_subset_msubset
    (∀ (l1 l2 : List α), l1 ⊆ l2 → l1.Nodup → msubset l1 l2) ∧
    -- multisubset.gh:548-550 msubset_same_len_eq
    (∀ (l1 l2 : List α), msubset l1 l2 → (l1.length : Int) = (l2.length : Int) → msubset l2 l1) := by
  refine ⟨?_, ?_, ?_, ?_, ?_, ?_, ?_, ?_, ?_, ?_, ?_, ?_, ?_, ?_, ?_, ?_, ?_, ?_, ?_, ?_, ?_, ?_, ?_, ?_, ?_, ?_, ?_,
    ?_, ?_, ?_, ?_, ?_, ?_⟩
  · simp only [multisetEq_iff, List.perm_iff_count, msubset_iff]
    intros
    grind [List.count_filter, List.count_pos_iff]
  · simp only [msubset_iff_subperm]
    intro l h
    exact List.subperm_nil.1 h
  · simp only [multisetEq_iff, List.perm_iff_count, msubset_iff]
    intros
    grind [List.count_filter, List.count_pos_iff]
  · simp only [multisetEq_iff, List.perm_iff_count, msubset_iff]
    intros
    grind [List.count_filter, List.count_pos_iff]
  · simp only [msubset_iff]
    intro l1 l2 x h1 h2 a
    have h3 := h2 a
    have h4 := List.count_pos_iff.2 h1
    rw [List.count_erase] at h3
    grind
  · simp only [msubset_iff_subperm]
    exact fun l1 l2 h => h.subset
  · simp only [multisetEq_iff, List.perm_iff_count, msubset_iff]
    intros
    grind [List.count_filter, List.count_pos_iff]
  · simp only [multisetEq_iff, List.perm_iff_count, msubset_iff]
    intros
    grind [List.count_filter, List.count_pos_iff]
  · simp only [multisetEq_iff, List.perm_iff_count, msubset_iff]
    intros
    grind [List.count_filter, List.count_pos_iff]
  · simp only [multisetEq_iff, List.perm_iff_count, msubset_iff]
    intros
    grind [List.count_filter, List.count_pos_iff]
  · simp only [multisetEq_iff, List.perm_iff_count, msubset_iff]
    intros
    grind [List.count_filter, List.count_pos_iff]
  · simp only [multisetEq_iff, List.perm_iff_count, msubset_iff]
    intros
    grind [List.count_filter, List.count_pos_iff]
  · simp only [msubset_iff_subperm]
    exact fun el l f h => (map_erase_perm f el l h).subperm
  · simp only [msubset_iff_subperm]
    exact fun f l1 l2 ⟨l, h1, h2⟩ => ⟨l.map f, h1.map f, h2.map f⟩
  · simp only [multisetEq_iff, List.perm_iff_count, msubset_iff]
    intros
    grind [List.count_filter, List.count_pos_iff]
  · simp only [multisetEq_iff, List.perm_iff_count, msubset_iff]
    intros
    grind [List.count_filter, List.count_pos_iff]
  · simp only [multisetEq_iff, List.perm_iff_count, msubset_iff]
    intros
    grind [List.count_filter, List.count_pos_iff]
  · simp only [multisetEq_iff, List.perm_iff_count, msubset_iff]
    intros
    grind [List.count_filter, List.count_pos_iff]
  · simp only [msubset_iff_subperm]
    exact fun l1 l2 f h h1 z hz => h1 z (h.subset hz)
  · simp only [multisetEq_iff, List.perm_iff_count, msubset_iff]
    intros
    grind [List.count_filter, List.count_pos_iff]
  · simp only [multisetEq_iff, List.perm_iff_count, msubset_iff]
    intros
    grind [List.count_filter, List.count_pos_iff]
  · simp only [multisetEq_iff, List.perm_iff_count, msubset_iff]
    intros
    grind [List.count_filter, List.count_pos_iff]
  · simp only [multisetEq_iff, List.perm_iff_count, msubset_iff]
    intros
    grind [List.count_filter, List.count_pos_iff]
  · simp only [multisetEq_iff, List.perm_iff_count, msubset_iff]
    intros
    grind [List.count_filter, List.count_pos_iff]
  · simp only [msubset_iff_subperm]
    exact fun l1 l2 h => by exact_mod_cast h.length_le
  · simp only [multisetEq_iff, List.perm_iff_count, msubset_iff]
    intros
    grind [List.count_filter, List.count_pos_iff]
  · simp only [multisetEq_iff, List.perm_iff_count, msubset_iff]
    intros
    grind [List.count_filter, List.count_pos_iff]
  · simp only [multisetEq_iff, List.perm_iff_count, msubset_iff]
    intros
    grind [List.count_filter, List.count_pos_iff]
  · simp only [multisetEq_iff, List.perm_iff_count, msubset_iff]
    intros
    grind [List.count_filter, List.count_pos_iff]
  · simp only [multisetEq_iff, List.perm_iff_count, msubset_iff]
    intros
    grind [List.count_filter, List.count_pos_iff]
  · simp only [multisetEq_iff, List.perm_iff_count, msubset_iff]
    intros
    grind [List.count_filter, List.count_pos_iff]
  · simp only [multisetEq_iff, List.perm_iff_count, msubset_iff]
    intros
    grind [List.count_filter, List.count_pos_iff]
  · simp only [msubset_iff_subperm]
    exact fun l1 l2 h h1 => (h.perm_of_length_le (by omega)).symm.subperm

/-- The hypotheses of `msubset_trans`, `msubset_unremove` and `msubset_same_len_eq` hold, and a list with more repetitions is
not included. -/
example :
    (msubset [2, 2] [2, 1, 2] ∧ msubset [2, 1, 2] [1, 3, 2, 2]) ∧
    (2 ∈ [2, 1, 2] ∧ msubset ([2, 2].erase 2) ([2, 1, 2].erase 2)) ∧
    (msubset [1, 2, 2] [2, 1, 2] ∧ [1, 2, 2].length = [2, 1, 2].length) ∧
    ¬ msubset [2, 2] [1, 2] := by
  simp only [msubset_iff_subperm]; decide

/-- C92, listexex.gh: elements by position, and taking, dropping and updating them. -/
theorem C92_positions {α : Type} :
    -- listexex.gh:6-9 forall_upto
    (∀ (d : α) (lst : List α) (p : α → Bool) (n : Int), (∀ z ∈ take n lst, p z = true) → p (nth d n lst) = true → (∀ z
      ∈ take (n + 1) lst, p z = true)) ∧
    -- listexex.gh:18-20 length_0_nil
    (∀ (lst : List α), (lst.length : Int) = 0 → lst = []) ∧
    -- listexex.gh:28-30 nth_0_head
    (∀ (d : α) (lst : List α), lst ≠ [] → nth d 0 lst = head d lst) ∧
    -- listexex.gh:38-40 nth_cons
    (∀ (d : α) (n : Int) (lst : List α) (h : α), 0 < n → nth d (n - 1) lst = nth d n (h :: lst)) ∧
    -- listexex.gh:48-50 nth_len_append_cons
    (∀ (d : α) (lst : List α) (x : α), nth d (lst.length : Int) (lst ++ [x]) = x) ∧
    -- listexex.gh:59-61 append_take_nth_to_take
    (∀ (d : α) (lst : List α) (n : Int), 0 ≤ n → n < (lst.length : Int) → take (n + 1) lst = take n lst ++ [nth d n
      lst]) ∧
    -- listexex.gh:70-72 nth_less_append_cons
    (∀ (d : α) (n : Int) (lst : List α) (x : α), 0 ≤ n → n < (lst.length : Int) → nth d n (lst ++ [x]) = nth d n lst)
      ∧
    -- listexex.gh:86-88 append_take_cons
    (∀ (d : α) (lst : List α), lst ≠ [] → lst = take ((lst.length : Int) - 1) lst ++ [nth d ((lst.length : Int) - 1)
      lst]) ∧
    -- listexex.gh:109-111 cons_take_take_cons
    (∀ (h : α) (tl : List α) (n : Int), 0 ≤ n → h :: take n tl = take (n + 1) (h :: tl)) ∧
    -- listexex.gh:120-122 cons_head_tail
    (∀ (d : α) (dl lst : List α), lst ≠ [] → lst = head d lst :: tail dl lst) ∧
    -- listexex.gh:130-132 length_tail
    (∀ (dl lst : List α), lst ≠ [] → (lst.length : Int) = 1 + ((tail dl lst).length : Int) ∧ 0 < (lst.length : Int)) ∧
    -- listexex.gh:140-142 update_tail_tail_update
    (∀ (dl : List α) (lhead : α) (ltail : List α) (ix : Int) (val : α), 0 < ix → tail dl (update ix val (lhead ::
      ltail)) = update (ix - 1) val ltail) ∧
    -- listexex.gh:155-157 tail_of_update_0
    (∀ (dl lst : List α) (val : α), lst ≠ [] → tail dl lst = tail dl (update 0 val lst)) ∧
    -- listexex.gh:165-167 update_id
    (∀ (d : α) (ix : Int) (lst : List α), lst = update ix (nth d ix lst) lst) ∧
    -- listexex.gh:178-180 update_non_nil
    (∀ (lst : List α) (n : Int) (val : α), lst ≠ [] → update n val lst ≠ []) ∧
    -- listexex.gh:188-190 head_update_0
    (∀ (d val : α) (lst : List α), lst ≠ [] → head d (update 0 val lst) = val) ∧
    -- listexex.gh:198-200 head_update_nonzero
    (∀ (d : α) (n : Int) (val : α) (lst : List α), 0 < n → head d (update n val lst) = head d lst) ∧
    -- listexex.gh:208-210 update_irrelevant_cell
    (∀ (vsearch : α) (n : Int) (vnew : α) (l : List α), vsearch ∉ l → vsearch ≠ vnew → vsearch ∉ update n vnew l) ∧
    -- listexex.gh:222-224 drop_update_relevant
    (∀ (k i : Int) (val : α) (l : List α), 0 ≤ k → k ≤ i → i < (l.length : Int) → drop k (update i val l) = update (i
      - k) val (drop k l)) ∧
    -- listexex.gh:235-237 drop_update_unrelevant
    (∀ (k i : Int) (val : α) (l : List α), 0 ≤ i → i < k → drop k (update i val l) = drop k l) ∧
    -- listexex.gh:248-250 take_update_relevant
    (∀ (k i : Int) (val : α) (l : List α), 0 ≤ i → i ≤ k → k < (l.length : Int) → take k (update i val l) = update i
      val (take k l)) ∧
    -- listexex.gh:261-263 take_update_unrelevant
    (∀ (k i : Int) (val : α) (l : List α), 0 ≤ k → k ≤ i → take k (update i val l) = take k l) ∧
    -- listexex.gh:274-276 forall_update
    (∀ (lst : List α) (p : α → Bool) (i : Int) (v : α), (∀ z ∈ lst, p z = true) → p v = true → (∀ z ∈ update i v lst,
      p z = true)) ∧
    -- listexex.gh:285-287 update_update
    (∀ (lst : List α) (i : Int) (vi : α) (j : Int) (vj : α), i ≠ j → update i vi (update j vj lst) = update j vj
      (update i vi lst)) ∧
    -- listexex.gh:297-299 nth_update_unrelevant
    (∀ (d : α) (i j : Int) (y : α) (xs : List α), i ≠ j → nth d i (update j y xs) = nth d i xs) ∧
    -- listexex.gh:309-311 tail_drop
    (∀ (dl lst : List α) (n : Int), 0 ≤ n → n < (lst.length : Int) → drop (n + 1) lst = tail dl (drop n lst)) ∧
    -- listexex.gh:322-324 drop_cons
    (∀ (d : α) (lst : List α) (n : Int), 0 ≤ n → n < (lst.length : Int) → drop n lst = nth d n lst :: drop (n + 1)
      lst) ∧
    -- listexex.gh:333-335 reverse_cons
    (∀ (h : α) (tl : List α), (h :: tl).reverse = tl.reverse ++ [h]) := by
  refine ⟨?_, ?_, ?_, ?_, ?_, ?_, ?_, ?_, ?_, ?_, ?_, ?_, ?_, ?_, ?_, ?_, ?_, ?_, ?_, ?_, ?_, ?_, ?_, ?_, ?_, ?_, ?_,
    ?_⟩
  · intro d lst p n h1 h2 z hz
    rcases mem_take_succ d lst n z hz with h | h
    · exact h1 z h
    · exact h ▸ h2
  · intro lst
    induction lst <;> grind [setEq, nth, take, drop, update, indexOf, head, tail, filterIdx, indexOfFp,
        integerCopies, flatten, chunk, rep, splitVarlim, split, integersList, zip, zipIndex]
  · intro d lst
    induction lst <;> grind [setEq, nth, take, drop, update, indexOf, head, tail, filterIdx, indexOfFp,
        integerCopies, flatten, chunk, rep, splitVarlim, split, integersList, zip, zipIndex]
  · intro d n lst h
    induction lst generalizing n h <;> grind [setEq, nth, take, drop, update, indexOf, head, tail, filterIdx,
        indexOfFp, integerCopies, flatten, chunk, rep, splitVarlim, split, integersList, zip, zipIndex]
  · intro d lst x
    induction lst generalizing x <;> grind [setEq, nth, take, drop, update, indexOf, head, tail, filterIdx,
        indexOfFp, integerCopies, flatten, chunk, rep, splitVarlim, split, integersList, zip, zipIndex]
  · exact fun d lst n h0 h1 => take_succ_nth d lst n h0 h1
  · intro d n lst x
    induction lst generalizing n x <;> grind [setEq, nth, take, drop, update, indexOf, head, tail, filterIdx,
        indexOfFp, integerCopies, flatten, chunk, rep, splitVarlim, split, integersList, zip, zipIndex]
  · intro d lst h
    have hl := List.length_pos_iff.2 h
    rw [← take_succ_nth d lst _ (by omega) (by omega), take_long _ _ (by omega)]
  · intro h tl n
    induction tl generalizing h n <;> grind [setEq, nth, take, drop, update, indexOf, head, tail, filterIdx,
        indexOfFp, integerCopies, flatten, chunk, rep, splitVarlim, split, integersList, zip, zipIndex]
  · intro d dl lst
    induction lst <;> grind [setEq, nth, take, drop, update, indexOf, head, tail, filterIdx, indexOfFp,
        integerCopies, flatten, chunk, rep, splitVarlim, split, integersList, zip, zipIndex]
  · intro dl lst
    induction lst <;> grind [setEq, nth, take, drop, update, indexOf, head, tail, filterIdx, indexOfFp,
        integerCopies, flatten, chunk, rep, splitVarlim, split, integersList, zip, zipIndex]
  · intro dl lhead ltail ix val
    induction ltail generalizing lhead ix val <;> grind [setEq, nth, take, drop, update, indexOf, head, tail,
        filterIdx, indexOfFp, integerCopies, flatten, chunk, rep, splitVarlim, split, integersList, zip, zipIndex]
  · intro dl lst val
    induction lst generalizing val <;> grind [setEq, nth, take, drop, update, indexOf, head, tail, filterIdx,
        indexOfFp, integerCopies, flatten, chunk, rep, splitVarlim, split, integersList, zip, zipIndex]
  · intro d ix lst
    induction lst generalizing ix <;> grind [setEq, nth, take, drop, update, indexOf, head, tail, filterIdx,
        indexOfFp, integerCopies, flatten, chunk, rep, splitVarlim, split, integersList, zip, zipIndex]
  · intro lst n val
    induction lst generalizing n val <;> grind [setEq, nth, take, drop, update, indexOf, head, tail, filterIdx,
        indexOfFp, integerCopies, flatten, chunk, rep, splitVarlim, split, integersList, zip, zipIndex]
  · intro d val lst
    induction lst generalizing val <;> grind [setEq, nth, take, drop, update, indexOf, head, tail, filterIdx,
        indexOfFp, integerCopies, flatten, chunk, rep, splitVarlim, split, integersList, zip, zipIndex]
  · intro d n val lst
    induction lst generalizing n val <;> grind [setEq, nth, take, drop, update, indexOf, head, tail, filterIdx,
        indexOfFp, integerCopies, flatten, chunk, rep, splitVarlim, split, integersList, zip, zipIndex]
  · intro vsearch n vnew l
    induction l generalizing vsearch n vnew <;> grind [setEq, nth, take, drop, update, indexOf, head, tail,
        filterIdx, indexOfFp, integerCopies, flatten, chunk, rep, splitVarlim, split, integersList, zip, zipIndex]
  · intro k i val l
    induction l generalizing k i val <;> grind [setEq, nth, take, drop, update, indexOf, head, tail, filterIdx,
        indexOfFp, integerCopies, flatten, chunk, rep, splitVarlim, split, integersList, zip, zipIndex]
  · intro k i val l
    induction l generalizing k i val <;> grind [setEq, nth, take, drop, update, indexOf, head, tail, filterIdx,
        indexOfFp, integerCopies, flatten, chunk, rep, splitVarlim, split, integersList, zip, zipIndex]
  · intro k i val l
    induction l generalizing k i val <;> grind [setEq, nth, take, drop, update, indexOf, head, tail, filterIdx,
        indexOfFp, integerCopies, flatten, chunk, rep, splitVarlim, split, integersList, zip, zipIndex]
  · intro k i val l
    induction l generalizing k i val <;> grind [setEq, nth, take, drop, update, indexOf, head, tail, filterIdx,
        indexOfFp, integerCopies, flatten, chunk, rep, splitVarlim, split, integersList, zip, zipIndex]
  · intro lst p i v
    induction lst generalizing i v <;> grind [setEq, nth, take, drop, update, indexOf, head, tail, filterIdx,
        indexOfFp, integerCopies, flatten, chunk, rep, splitVarlim, split, integersList, zip, zipIndex]
  · intro lst i vi j vj
    induction lst generalizing i vi j vj <;> grind [setEq, nth, take, drop, update, indexOf, head, tail, filterIdx,
        indexOfFp, integerCopies, flatten, chunk, rep, splitVarlim, split, integersList, zip, zipIndex]
  · intro d i j y xs
    induction xs generalizing i j y <;> grind [setEq, nth, take, drop, update, indexOf, head, tail, filterIdx,
        indexOfFp, integerCopies, flatten, chunk, rep, splitVarlim, split, integersList, zip, zipIndex]
  · intro dl lst n h0 h1
    cases lst with
    | nil => exact absurd h1 (Int.not_lt.2 h0)
    | cons x xs => rw [drop_eq_nth_cons x _ n h0 h1]; rfl
  · exact fun d lst n h0 h1 => drop_eq_nth_cons d lst n h0 h1
  · intros
    grind [setEq, disj_iff, head, tail]

/-- The hypotheses of `forall_upto` hold with an index in the list, past it and before it, and those of
`drop_update_relevant` and `take_update_relevant`. -/
example :
    (take 1 [2, 4, 5] = [2] ∧ nth 0 1 [2, 4, 5] = 4) ∧ (take 7 [2, 4] = [2, 4] ∧ nth 6 7 [2, 4] = 6) ∧
    (take (-3) [2, 4] = [2, 4] ∧ nth 6 (-3) [2, 4] = 6) ∧
    ((0 : Int) ≤ 1 ∧ (1 : Int) ≤ 2 ∧ (2 : Int) < ([7, 8, 9] : List Nat).length) := by decide

/-- C92, listexex.gh: appending, filtering, mapping and removing elements, and lists without repeated elements. -/
theorem C92_elements {α β : Type} [DecidableEq α] [DecidableEq β] :
    -- listexex.gh:340-344 append_reverse_take_cons
    (∀ (n : Int) (h : α) (tl tt : List α), 0 < n → (take (n - 1) tl).reverse ++ (h :: tt) = ((take n (h ::
      tl)).reverse) ++ tt) ∧
    -- listexex.gh:350-353 append_reverse_tail_cons_head
    (∀ (dl : List α) (d : α) (l1 l2 : List α), l1 ≠ [] → (tail dl l1).reverse ++ (head d l1 :: l2) = l1.reverse ++ l2)
      ∧
    -- listexex.gh:360-362 append_append_cons_to_append_cons
    (∀ (l1 : List α) (el : α) (l2 : List α), (l1 ++ [el]) ++ l2 = l1 ++ (el :: l2)) ∧
    -- listexex.gh:371-374 append_append_assoc
    (∀ (l1 l2 l3 : List α), (l1 ++ l2) ++ l3 = l1 ++ (l2 ++ l3)) ∧
    -- listexex.gh:385-387 forall_nth
    (∀ (d : α) (lst : List α) (p : α → Bool) (i : Int), 0 ≤ i → i < (lst.length : Int) → (∀ z ∈ lst, p z = true) → p
      (nth d i lst) = true) ∧
    -- listexex.gh:398-400 forall_remove
    (∀ (lst : List α) (x : α) (p : α → Bool), (∀ z ∈ lst, p z = true) → (∀ z ∈ lst.erase x, p z = true)) ∧
    -- listexex.gh:411-413 drop_drop
    (∀ (n m : Int) (l : List α), 0 ≤ n → 0 ≤ m → n + m ≤ (l.length : Int) → drop n (drop m l) = drop (n + m) l) ∧
    -- listexex.gh:423-425 append_nonnil_l
    (∀ (a b : List α), a ≠ [] → a ++ b ≠ []) ∧
    -- listexex.gh:433-435 filter_no_increase_len
    (∀ (f : α → Bool) (xs : List α), ((xs.filter f).length : Int) ≤ (xs.length : Int)) ∧
    -- listexex.gh:444-446 map_preserves_length
    (∀ (f : α → β) (xs : List α), ((xs.map f).length : Int) = (xs.length : Int)) ∧
    -- listexex.gh:455-459 take_effect_on_len
    (∀ (l : List α) (n : Int), 0 ≤ n → ((n ≤ (l.length : Int)) → ((take n l).length : Int) = n) ∧ (¬ (n ≤ (l.length :
      Int)) → ((take n l).length : Int) = (l.length : Int))) ∧
    -- listexex.gh:468-470 map_effect_on_len
    (∀ (l : List α) (f : α → β), (l.length : Int) = ((l.map f).length : Int)) ∧
    -- listexex.gh:479-483 filter_effect_on_len
    (∀ (l : List α) (f : α → Bool), ((((l.filter f).length : Int) = (l.length : Int)) → l.filter f = l) ∧ (¬
      (((l.filter f).length : Int) = (l.length : Int)) → ((l.filter f).length : Int) < (l.length : Int))) ∧
    -- listexex.gh:492-494 car_drop_is_nth
    (∀ (d : α) (n : Int) (lst : List α) (h : α) (rest : List α), 0 ≤ n → n < (lst.length : Int) → drop n lst = h ::
      rest → nth d n lst = h) ∧
    -- listexex.gh:503-505 take_take
    (∀ (n m : Int) (lst : List α), 0 ≤ n → n ≤ m → take n (take m lst) = take n lst) ∧
    -- listexex.gh:514-516 take_map
    (∀ (n : Int) (f : α → β) (lst : List α), 0 ≤ n → n < (lst.length : Int) → take n (lst.map f) = (take n lst).map f)
      ∧
    -- listexex.gh:525-527 remove_nonmem
    (∀ (el : α) (l : List α), el ∉ l → l.erase el = l) ∧
    -- listexex.gh:536-538 distinct_unique
    (∀ (lst : List α) (x : α), lst.Nodup → x ∉ lst.erase x) ∧
    -- listexex.gh:547-549 remove_unrelevant_preserves_distinct
    (∀ (l : List α) (x : α), x ∉ l.erase x → (l.Nodup ↔ ((l.erase x).Nodup))) ∧
    -- listexex.gh:561-563 remove_still_distinct
    (∀ (l : List α) (x : α), l.Nodup → (l.erase x).Nodup) ∧
    -- listexex.gh:575-577 drop_append_small
    (∀ (n : Int) (l1 l2 : List α), 0 ≤ n → n ≤ (l1.length : Int) → drop n l1 ++ l2 = drop n (l1 ++ l2)) ∧
    -- listexex.gh:587-589 take_append_small
    (∀ (n : Int) (l1 l2 : List α), 0 ≤ n → n ≤ (l1.length : Int) → take n l1 = take n (l1 ++ l2)) ∧
    -- listexex.gh:599-601 head_take
    (∀ (d : α) (n : Int) (l : List α), 0 < n → head d l = head d (take n l)) ∧
    -- listexex.gh:611-616 nonmem_map_filter
    (∀ (f1 : α → β) (f2 : α → Bool) (l : List α) (el : α), f1 el ∉ l.map f1 → f1 el ∉ (l.filter f2).map f1) ∧
    -- listexex.gh:625-629 distinct_map_filter
    (∀ (f1 : α → β) (f2 : α → Bool) (l : List α), (l.map f1).Nodup → ((l.filter f2).map f1).Nodup) ∧
    -- listexex.gh:639-642 non_mem_map_remove
    (∀ (l : List α) (x1 : β) (x2 : α) (f : α → β), x1 ∉ l.map f → x1 ∉ (l.erase x2).map f) ∧
    -- listexex.gh:654-656 distinct_map_remove
    (∀ (l : List α) (f : α → β) (x : α), (l.map f).Nodup → ((l.erase x).map f).Nodup) ∧
    -- listexex.gh:672-676 forall_filter
    (∀ (f1 f2 : α → Bool) (l : List α), (∀ z ∈ l, f1 z = true) → (∀ z ∈ l.filter f2, f1 z = true)) ∧
    -- listexex.gh:685-688 filter_append_idemp
    (∀ (l1 l2 : List α) (f : α → Bool), (l1 ++ l2).filter f = l1.filter f ++ l2.filter f) ∧
    -- listexex.gh:697-700 filter_forall
    (∀ (f : α → Bool) (l : List α), ((l = l.filter f) ↔ (∀ z ∈ l, f z = true)) ∧ (∀ z ∈ l.filter f, f z = true)) ∧
    -- listexex.gh:716-718 double_mem_append_nondistinct
    (∀ (l1 l2 : List α) (x : α), x ∈ l1 → x ∈ l2 → ¬ ((l1 ++ l2).Nodup)) ∧
    -- listexex.gh:731-733 append_remove_first
    (∀ (l1 l2 : List α) (el : α), el ∈ l1 → (l1 ++ l2).erase el = l1.erase el ++ l2) ∧
    -- listexex.gh:742-744 rem_preserves_no_mem
    (∀ (ks : List (Option α)) (k : α) (i : Int), some k ∉ ks → some k ∉ update i none ks) := by
  refine ⟨?_, ?_, ?_, ?_, ?_, ?_, ?_, ?_, ?_, ?_, ?_, ?_, ?_, ?_, ?_, ?_, ?_, ?_, ?_, ?_, ?_, ?_, ?_, ?_, ?_, ?_, ?_,
    ?_, ?_, ?_, ?_, ?_, ?_⟩
  · intro n h tl tt
    induction tt generalizing n h tl <;> grind [setEq, nth, take, drop, update, indexOf, head, tail, filterIdx,
        indexOfFp, integerCopies, flatten, chunk, rep, splitVarlim, split, integersList, zip, zipIndex]
  · intro dl d l1 l2
    induction l1 generalizing l2 <;> grind [setEq, nth, take, drop, update, indexOf, head, tail, filterIdx,
        indexOfFp, integerCopies, flatten, chunk, rep, splitVarlim, split, integersList, zip, zipIndex]
  · intros
    grind [setEq, disj_iff, head, tail]
  · intros
    grind [setEq, disj_iff, head, tail]
  · intro d lst p i
    induction lst generalizing i <;> grind [setEq, nth, take, drop, update, indexOf, head, tail, filterIdx,
        indexOfFp, integerCopies, flatten, chunk, rep, splitVarlim, split, integersList, zip, zipIndex]
  · intros
    grind [setEq, disj_iff, head, tail]
  · intro n m l
    induction l generalizing n m <;> grind [setEq, nth, take, drop, update, indexOf, head, tail, filterIdx,
        indexOfFp, integerCopies, flatten, chunk, rep, splitVarlim, split, integersList, zip, zipIndex]
  · intro a b
    induction a generalizing b <;> grind [setEq, nth, take, drop, update, indexOf, head, tail, filterIdx, indexOfFp,
        integerCopies, flatten, chunk, rep, splitVarlim, split, integersList, zip, zipIndex]
  · intros
    grind [setEq, disj_iff, head, tail]
  · intros
    grind [setEq, disj_iff, head, tail]
  · intro l n
    induction l generalizing n <;> grind [setEq, nth, take, drop, update, indexOf, head, tail, filterIdx, indexOfFp,
        integerCopies, flatten, chunk, rep, splitVarlim, split, integersList, zip, zipIndex]
  · intros
    grind [setEq, disj_iff, head, tail]
  · intro l f
    induction l <;> grind [setEq, nth, take, drop, update, indexOf, head, tail, filterIdx, indexOfFp, integerCopies,
        flatten, chunk, rep, splitVarlim, split, integersList, zip, zipIndex]
  · intro d n lst
    induction lst generalizing n <;> grind [setEq, nth, take, drop, update, indexOf, head, tail, filterIdx,
        indexOfFp, integerCopies, flatten, chunk, rep, splitVarlim, split, integersList, zip, zipIndex]
  · intro n m lst
    induction lst generalizing n m <;> grind [setEq, nth, take, drop, update, indexOf, head, tail, filterIdx,
        indexOfFp, integerCopies, flatten, chunk, rep, splitVarlim, split, integersList, zip, zipIndex]
  · intro n f lst
    induction lst generalizing n <;> grind [setEq, nth, take, drop, update, indexOf, head, tail, filterIdx,
        indexOfFp, integerCopies, flatten, chunk, rep, splitVarlim, split, integersList, zip, zipIndex]
  · intro el l
    induction l generalizing el <;> grind [setEq, nth, take, drop, update, indexOf, head, tail, filterIdx,
        indexOfFp, integerCopies, flatten, chunk, rep, splitVarlim, split, integersList, zip, zipIndex]
  · intros
    grind [setEq, disj_iff, head, tail]
  · intro l x
    induction l generalizing x <;> grind [setEq, nth, take, drop, update, indexOf, head, tail, filterIdx, indexOfFp,
        integerCopies, flatten, chunk, rep, splitVarlim, split, integersList, zip, zipIndex]
  · intros
    grind [setEq, disj_iff, head, tail]
  · intros
    grind [chunk, nth_pos, take_pos, drop_pos, update_pos, head, tail]
  · intros
    grind [chunk, nth_pos, take_pos, drop_pos, update_pos, head, tail]
  · intro d n l
    induction l generalizing n <;> grind [setEq, nth, take, drop, update, indexOf, head, tail, filterIdx, indexOfFp,
        integerCopies, flatten, chunk, rep, splitVarlim, split, integersList, zip, zipIndex]
  · intros
    grind [setEq, disj_iff, head, tail]
  · intros
    grind [setEq, disj_iff, head, tail]
  · intros
    grind [setEq, disj_iff, head, tail]
  · intros
    grind [setEq, disj_iff, head, tail]
  · intros
    grind [setEq, disj_iff, head, tail]
  · intros
    grind [setEq, disj_iff, head, tail]
  · intro f l
    induction l <;> grind [setEq, nth, take, drop, update, indexOf, head, tail, filterIdx, indexOfFp, integerCopies,
        flatten, chunk, rep, splitVarlim, split, integersList, zip, zipIndex]
  · intros
    grind [setEq, disj_iff, head, tail]
  · intros
    grind [setEq, disj_iff, head, tail]
  · intro ks k i
    induction ks generalizing k i <;> grind [setEq, nth, take, drop, update, indexOf, head, tail, filterIdx,
        indexOfFp, integerCopies, flatten, chunk, rep, splitVarlim, split, integersList, zip, zipIndex]

/-- The hypotheses of `remove_unrelevant_preserves_distinct`, `car_drop_is_nth` and `distinct_map_filter` hold. -/
example :
    (3 ∉ [1, 3, 2, 2].erase 3 ∧ ¬ [1, 3, 2, 2].Nodup) ∧ (drop 1 [4, 5, 6] = 5 :: [6]) ∧
    ([1, 2, 3].map (fun n => n + 7)).Nodup := by decide

/-- C92, listexex.gh: lists without common elements, and removing and updating. -/
theorem C92_disjoint {α β : Type} [DecidableEq α] [DecidableEq β] :
    -- listexex.gh:759-763 distinct_unappend
    (∀ (l1 l2 : List α), (l1 ++ l2).Nodup → l1.Nodup ∧ l2.Nodup ∧ disjoint l2 l1) ∧
    -- listexex.gh:773-775 disjoint_mem
    (∀ (l1 l2 : List α) (x : α), disjoint l1 l2 → ((x ∈ l1) → ¬ (x ∈ l2)) ∧ (¬ (x ∈ l1) → True)) ∧
    -- listexex.gh:788-791 disjoint_uncons
    (∀ (el : α) (l1 l2 : List α), disjoint (el :: l1) l2 → el ∉ l2 ∧ disjoint l1 l2) ∧
    -- listexex.gh:800-803 disjoint_cons
    (∀ (l1 l2 : List α) (el : α), disjoint l1 l2 → el ∉ l2 → disjoint (el :: l1) l2) ∧
    -- listexex.gh:813-817 distinct_and_disjoint_append
    (∀ (l1 l2 : List α), l1.Nodup → l2.Nodup → disjoint l1 l2 → (l1 ++ l2).Nodup) ∧
    -- listexex.gh:828-830 disjoint_unappend_left
    (∀ (l1 l2 l3 : List α), disjoint (l1 ++ l2) l3 → disjoint l1 l3 ∧ disjoint l2 l3) ∧
    -- listexex.gh:840-844 disjoint_unappend
    (∀ (l1 l2 l3 l4 : List α), disjoint (l1 ++ l2) (l3 ++ l4) → disjoint l1 l3 ∧ disjoint l1 l4 ∧ disjoint l2 l3 ∧
      disjoint l2 l4) ∧
    -- listexex.gh:855-857 disjoint_comm
    (∀ (l1 l2 : List α), ((disjoint l1 l2) ↔ (disjoint l2 l1))) ∧
    -- listexex.gh:876-879 disjoint_append_left
    (∀ (l1 l2 l3 : List α), disjoint l1 l3 → disjoint l2 l3 → disjoint (l1 ++ l2) l3) ∧
    -- listexex.gh:889-895 disjoint_append
    (∀ (l1 l2 l3 l4 : List α), disjoint l1 l3 → disjoint l1 l4 → disjoint l2 l3 → disjoint l2 l4 → disjoint (l1 ++ l2)
      (l3 ++ l4)) ∧
    -- listexex.gh:906-908 distinct_unmap
    (∀ (lst : List α) (f : α → β), (lst.map f).Nodup → lst.Nodup) ∧
    -- listexex.gh:920-925 remove_append_swap
    (∀ (x : α) (l1 l2 : List α), (l1 ++ l2).erase x = (if x ∈ l1 then l1.erase x ++ l2 else l1 ++ l2.erase x)) ∧
    -- listexex.gh:936-943 unique_map_identical_elems
    (∀ (f : α → β) (l : List α) (x1 x2 : α), f x1 ∉ (l.map f).erase (f x1) → x1 ∈ l → x2 ∈ l → f x1 = f x2 → x1 = x2)
      ∧
    -- listexex.gh:969-976 distinct_map_identical_elems
    (∀ (f : α → β) (l : List α) (x1 x2 : α), (l.map f).Nodup → x1 ∈ l → x2 ∈ l → f x1 = f x2 → x1 = x2) ∧
    -- listexex.gh:982-986 filter_filter_swap
    (∀ (f1 f2 : α → Bool) (l : List α), (l.filter f2).filter f1 = (l.filter f1).filter f2) ∧
    -- listexex.gh:995-998 filter_mem
    (∀ (el : α) (l : List α) (f : α → Bool), el ∈ l → f el = true → el ∈ l.filter f) ∧
    -- listexex.gh:1009-1011 mem_update
    (∀ (el : α) (i : Int) (l : List α), 0 ≤ i → i < (l.length : Int) → el ∈ update i el l) ∧
    -- listexex.gh:1020-1022 filter_unmem
    (∀ (el : α) (l : List α) (f : α → Bool), f el = false → el ∉ l.filter f) ∧
    -- listexex.gh:1031-1033 filter_remove
    (∀ (f : α → Bool) (el : α) (l : List α), (l.filter f).erase el = (l.erase el).filter f) ∧
    -- listexex.gh:1048-1050 index_of_positive
    (∀ (el : α) (l : List α), 0 ≤ indexOf el l) ∧
    -- listexex.gh:1058-1064 nth_remove
    (∀ (d : α) (i : Int) (el : α) (l : List α), 0 ≤ i → el ∈ l → indexOf el l ≠ i → nth d i l = (if indexOf el l < i
      then nth d (i - 1) (l.erase el) else nth d i (l.erase el))) ∧
    -- listexex.gh:1080-1086 update_remove
    (∀ (i : Int) (el1 el2 : α) (l : List α), 0 ≤ i → el1 ≠ el2 → ((indexOf el2 l ≤ i) → update i el1 (l.erase el2) =
      (update (i + 1) el1 l).erase el2) ∧ (¬ (indexOf el2 l ≤ i) → update i el1 (l.erase el2) = (update i el1 l).erase
      el2)) ∧
    -- listexex.gh:1101-1103 mem_unfilter
    (∀ (el : α) (f : α → Bool) (l : List α), el ∈ l.filter f → el ∈ l) ∧
    -- listexex.gh:1112-1114 mem_update_unrelevant
    (∀ (el1 : α) (ix : Int) (el2 : α) (l : List α), el1 ∈ l → indexOf el1 l ≠ ix → el1 ∈ update ix el2 l) ∧
    -- listexex.gh:1124-1126 update_update_rewrite
    (∀ (el1 : α) (ix : Int) (el2 : α) (l : List α), update ix el1 (update ix el2 l) = update ix el1 l) ∧
    -- listexex.gh:1139-1141 update_out_of_bounds
    (∀ (ix : Int) (el : α) (l : List α), ((ix < 0) ∨ ((l.length : Int) ≤ ix)) → update ix el l = l) ∧
    -- listexex.gh:1150-1152 drop_except_last
    (∀ (d : α) (lst : List α) (n : Int), 0 ≤ n → n < (lst.length : Int) → nth d n lst :: drop (n + 1) lst = drop n
      lst) ∧
    -- listexex.gh:1163-1166 all_eq_drop
    (∀ (lst : List α) (cnt : Int) (value : α), 0 ≤ cnt → cnt ≤ (lst.length : Int) → allEq value lst → allEq value
      (drop cnt lst)) ∧
    -- listexex.gh:1178-1181 all_eq_take
    (∀ (lst : List α) (cnt : Int) (value : α), 0 ≤ cnt → cnt ≤ (lst.length : Int) → allEq value lst → allEq value
      (take cnt lst)) := by
  refine ⟨?_, ?_, ?_, ?_, ?_, ?_, ?_, ?_, ?_, ?_, ?_, ?_, ?_, ?_, ?_, ?_, ?_, ?_, ?_, ?_, ?_, ?_, ?_, ?_, ?_, ?_, ?_,
    ?_, ?_⟩
  · intros
    grind [setEq, disj_iff, head, tail]
  · intros
    grind [setEq, disj_iff, head, tail]
  · intros
    grind [setEq, disj_iff, head, tail]
  · intros
    grind [setEq, disj_iff, head, tail]
  · intros
    grind [setEq, disj_iff, head, tail]
  · intros
    grind [setEq, disj_iff, head, tail]
  · simp only [disj_iff]
    intro l1 l2 l3 l4 h
    refine ⟨?_, ?_, ?_, ?_⟩ <;> (intro z h1 h2; exact h z (by simp [h1]) (by simp [h2]))
  · intros
    grind [setEq, disj_iff, head, tail]
  · intros
    grind [setEq, disj_iff, head, tail]
  · intros
    grind [setEq, disj_iff, head, tail]
  · intro lst f
    induction lst <;> grind [setEq, nth, take, drop, update, indexOf, head, tail, filterIdx, indexOfFp,
        integerCopies, flatten, chunk, rep, splitVarlim, split, integersList, zip, zipIndex]
  · intros
    grind [setEq, disj_iff, head, tail]
  · intro f l x1 x2
    induction l generalizing x1 x2 <;> grind [setEq, nth, take, drop, update, indexOf, head, tail, filterIdx,
        indexOfFp, integerCopies, flatten, chunk, rep, splitVarlim, split, integersList, zip, zipIndex]
  · intro f l x1 x2
    induction l generalizing x1 x2 <;> grind [setEq, nth, take, drop, update, indexOf, head, tail, filterIdx,
        indexOfFp, integerCopies, flatten, chunk, rep, splitVarlim, split, integersList, zip, zipIndex]
  · intro f1 f2 l
    induction l <;> grind [setEq, nth, take, drop, update, indexOf, head, tail, filterIdx, indexOfFp, integerCopies,
        flatten, chunk, rep, splitVarlim, split, integersList, zip, zipIndex]
  · intros
    grind [setEq, disj_iff, head, tail]
  · intro el i l
    induction l generalizing el i <;> grind [setEq, nth, take, drop, update, indexOf, head, tail, filterIdx,
        indexOfFp, integerCopies, flatten, chunk, rep, splitVarlim, split, integersList, zip, zipIndex]
  · intros
    grind [setEq, disj_iff, head, tail]
  · intros
    grind [setEq, disj_iff, head, tail]
  · intro el l
    induction l generalizing el <;> grind [setEq, nth, take, drop, update, indexOf, head, tail, filterIdx,
        indexOfFp, integerCopies, flatten, chunk, rep, splitVarlim, split, integersList, zip, zipIndex]
  · exact fun d i el l h0 h1 h2 => nth_erase d el l i h0 h1 h2
  · exact fun i el1 el2 l h0 h1 => update_erase i el1 el2 l h0 h1
  · intros
    grind [setEq, disj_iff, head, tail]
  · intro el1 ix el2 l
    induction l generalizing el1 ix el2 <;> grind [setEq, nth, take, drop, update, indexOf, head, tail, filterIdx,
        indexOfFp, integerCopies, flatten, chunk, rep, splitVarlim, split, integersList, zip, zipIndex]
  · intro el1 ix el2 l
    induction l generalizing el1 ix el2 <;> grind [setEq, nth, take, drop, update, indexOf, head, tail, filterIdx,
        indexOfFp, integerCopies, flatten, chunk, rep, splitVarlim, split, integersList, zip, zipIndex]
  · intro ix el l
    induction l generalizing ix el <;> grind [setEq, nth, take, drop, update, indexOf, head, tail, filterIdx,
        indexOfFp, integerCopies, flatten, chunk, rep, splitVarlim, split, integersList, zip, zipIndex]
  · exact fun d lst n h0 h1 => (drop_eq_nth_cons d lst n h0 h1).symm
  · simp only [disj_iff, allEq_iff]
    intros
    grind [take_pos, drop_pos, List.nodup_append, List.mem_of_mem_take, List.mem_of_mem_drop]
  · simp only [disj_iff, allEq_iff]
    intros
    grind [take_pos, drop_pos, List.nodup_append, List.mem_of_mem_take, List.mem_of_mem_drop]

/-- The hypotheses of `disjoint_append`, `unique_map_identical_elems`, `nth_remove` and `mem_update_unrelevant` hold. -/
example :
    (disjoint [1] [3, 3] ∧ disjoint [1] [4] ∧ disjoint [2, 2] [3, 3] ∧ disjoint [2, 2] [4]) ∧
    (4 / 2 ∉ ([1, 4, 6].map (fun n => n / 2)).erase (4 / 2) ∧ 4 ∈ [1, 4, 6]) ∧
    (2 ∈ [1, 2, 3] ∧ indexOf 2 [1, 2, 3] ≠ 2) ∧ (2 ∈ [1, 2, 3] ∧ indexOf 2 [1, 2, 3] ≠ -5) := by
  unfold disjoint; decide

/-- C93, listutils-lemmas.gh: the positions at which a predicate holds, and how often an integer occurs. -/
theorem C93_positions {α : Type} :
    -- listutils-lemmas.gh:8-10 filter_idx_length_count_equiv
    (∀ (xs : List α) (idx : Int) (fp : α → Bool), (xs.countP fp : Int) = ((filterIdx xs idx fp).length : Int)) ∧
    -- listutils-lemmas.gh:12-14 filter_idx_ge
    (∀ (xs : List α) (idx : Int) (fp : α → Bool), (∀ z ∈ filterIdx xs idx fp, idx ≤ z)) ∧
    -- listutils-lemmas.gh:16-18 filter_idx_lt
    (∀ (xs : List α) (idx : Int) (fp : α → Bool), (∀ z ∈ filterIdx xs idx fp, z < idx + (xs.length : Int))) ∧
    -- listutils-lemmas.gh:20-22 mem_ge
    (∀ (xs : List Int) (low_bound x : Int), (∀ z ∈ xs, low_bound ≤ z) → x < low_bound → x ∉ xs) ∧
    -- listutils-lemmas.gh:24-26 filter_idx_distinct
    (∀ (xs : List α) (idx : Int) (fp : α → Bool), (filterIdx xs idx fp).Nodup) ∧
    -- listutils-lemmas.gh:28-30 filter_idx_append
    (∀ (xs ys : List α) (idx : Int) (fp : α → Bool), filterIdx (xs ++ ys) idx fp = filterIdx xs idx fp ++ filterIdx ys
      (idx + (xs.length : Int)) fp) ∧
    -- listutils-lemmas.gh:32-34 filter_idx_count_append
    (∀ (xs ys : List α) (idx : Int) (fp : α → Bool), ((filterIdx (xs ++ ys) idx fp).length : Int) = (xs.countP fp :
      Int) + (ys.countP fp : Int)) ∧
    -- listutils-lemmas.gh:36-38 filter_idx_drop_last
    (∀ (xs : List α) (idx : Int) (fp : α → Bool) (x : α), fp x = false → filterIdx xs idx fp = filterIdx (xs ++ [x])
      idx fp) ∧
    -- listutils-lemmas.gh:40-42 filter_idx_include_last
    (∀ (xs : List α) (idx : Int) (fp : α → Bool) (x : α), fp x = true → filterIdx xs idx fp ++ [idx + (xs.length :
      Int)] = filterIdx (xs ++ [x]) idx fp) ∧
    -- listutils-lemmas.gh:44-46 filter_idx_nth_to_mem
    (∀ (d : α) (xs : List α) (idx : Int) (fp : α → Bool) (i : Int), fp (nth d i xs) = true → 0 ≤ i → i < (xs.length :
      Int) → i + idx ∈ filterIdx xs idx fp) ∧
    -- listutils-lemmas.gh:48-50 filter_idx_mem_to_nth
    (∀ (d : α) (xs : List α) (idx : Int) (fp : α → Bool) (i : Int), i + idx ∈ filterIdx xs idx fp → 0 ≤ i → i <
      (xs.length : Int) → fp (nth d i xs) = true) ∧
    -- listutils-lemmas.gh:52-54 count_idx
    (∀ (d : α) (xs : List α) (fp : α → Bool) (i : Int), fp (nth d i xs) = true → 0 ≤ i → i < (xs.length : Int) →
      (xs.countP fp : Int) > 0) ∧
    -- listutils-lemmas.gh:56-58 filter_idx_fst
    (∀ (d : α) (di : Int) (xs : List α) (idx : Int) (fp : α → Bool) (i : Int), ((take i xs).countP fp : Int) = 0 → fp
      (nth d i xs) = true → 0 ≤ i → i < (xs.length : Int) → nth di 0 (filterIdx xs idx fp) = i + idx) ∧
    -- listutils-lemmas.gh:60-65 filter_idx_take
    (∀ (d : α) (di : Int) (xs : List α) (idx : Int) (fp : α → Bool) (cnt i : Int), ((take i xs).countP fp : Int) = cnt
      → fp (nth d i xs) = true → 0 ≤ cnt → 0 ≤ i → i < (xs.length : Int) → nth di cnt (filterIdx xs idx fp) = i + idx)
      ∧
    -- listutils-lemmas.gh:69-71 index_of_fp_exists
    (∀ (d : α) (xs : List α) (idx : Int) (fp : α → Bool) (i : Int), (∀ z ∈ take i xs, false = (fp z)) → fp (nth d i
      xs) = true → 0 ≤ i → i < (xs.length : Int) → indexOfFp xs idx fp = some (idx + i)) ∧
    -- listutils-lemmas.gh:75-77 integer_copies_nil
    (∀ (val : Nat) (nb_copies : Int), 0 = nb_copies → integerCopies val nb_copies []) ∧
    -- listutils-lemmas.gh:79-81 integer_copies_val
    (∀ (x : Int) (val : Nat) (nb_copies : Int) (xs : List Int), integerCopies val nb_copies xs → 0 ≤ x → x ≤ (val :
      Int) → (xs.countP (fun z => decide (x = z)) : Int) = nb_copies) ∧
    -- listutils-lemmas.gh:83-85 integer_copies_append
    (∀ (xs ys : List Int) (val : Nat) (nb_copies_xs nb_copies_ys : Int), integerCopies val nb_copies_xs xs →
      integerCopies val nb_copies_ys ys → integerCopies val (nb_copies_xs + nb_copies_ys) (xs ++ ys)) ∧
    -- listutils-lemmas.gh:89-91 flatten_allnil
    (∀ (xs : List (List α)), (∀ z ∈ xs, [] = z) → flatten xs = []) := by
  refine ⟨?_, ?_, ?_, ?_, ?_, ?_, ?_, ?_, ?_, ?_, ?_, ?_, ?_, ?_, ?_, ?_, ?_, ?_, ?_⟩
  · intro xs idx fp
    induction xs generalizing idx <;> grind [setEq, nth, take, drop, update, indexOf, head, tail, filterIdx,
        indexOfFp, integerCopies, flatten, chunk, rep, splitVarlim, split, integersList, zip, zipIndex]
  · intro xs idx fp
    induction xs generalizing idx <;> grind [setEq, nth, take, drop, update, indexOf, head, tail, filterIdx,
        indexOfFp, integerCopies, flatten, chunk, rep, splitVarlim, split, integersList, zip, zipIndex]
  · intro xs idx fp
    induction xs generalizing idx <;> grind [setEq, nth, take, drop, update, indexOf, head, tail, filterIdx,
        indexOfFp, integerCopies, flatten, chunk, rep, splitVarlim, split, integersList, zip, zipIndex]
  · intros
    grind [setEq, disj_iff, head, tail]
  · exact fun xs idx fp => filterIdx_nodup xs idx fp
  · intro xs ys idx fp
    induction xs generalizing ys idx <;> grind [setEq, nth, take, drop, update, indexOf, head, tail, filterIdx,
        indexOfFp, integerCopies, flatten, chunk, rep, splitVarlim, split, integersList, zip, zipIndex]
  · intro xs ys idx fp
    rw [filterIdx_length, List.countP_append]
    push_cast
    rfl
  · intro xs idx fp x
    induction xs generalizing idx x <;> grind [setEq, nth, take, drop, update, indexOf, head, tail, filterIdx,
        indexOfFp, integerCopies, flatten, chunk, rep, splitVarlim, split, integersList, zip, zipIndex]
  · intro xs idx fp x
    induction xs generalizing idx x <;> grind [setEq, nth, take, drop, update, indexOf, head, tail, filterIdx,
        indexOfFp, integerCopies, flatten, chunk, rep, splitVarlim, split, integersList, zip, zipIndex]
  · intro d xs idx fp i
    induction xs generalizing idx i <;> grind [setEq, nth, take, drop, update, indexOf, head, tail, filterIdx,
        indexOfFp, integerCopies, flatten, chunk, rep, splitVarlim, split, integersList, zip, zipIndex]
  · exact fun d xs idx fp i h _ _ => filterIdx_mem d xs idx i fp h
  · intro d xs fp i
    induction xs generalizing i <;> grind [setEq, nth, take, drop, update, indexOf, head, tail, filterIdx,
        indexOfFp, integerCopies, flatten, chunk, rep, splitVarlim, split, integersList, zip, zipIndex]
  · intro d di xs idx fp i
    induction xs generalizing idx i <;> grind [setEq, nth, take, drop, update, indexOf, head, tail, filterIdx,
        indexOfFp, integerCopies, flatten, chunk, rep, splitVarlim, split, integersList, zip, zipIndex]
  · intro d di xs idx fp cnt i
    induction xs generalizing idx cnt i <;> grind [setEq, nth, take, drop, update, indexOf, head, tail, filterIdx,
        indexOfFp, integerCopies, flatten, chunk, rep, splitVarlim, split, integersList, zip, zipIndex]
  · intro d xs idx fp i
    induction xs generalizing idx i <;> grind [setEq, nth, take, drop, update, indexOf, head, tail, filterIdx,
        indexOfFp, integerCopies, flatten, chunk, rep, splitVarlim, split, integersList, zip, zipIndex]
  · intro val nb_copies
    induction val generalizing nb_copies <;> grind [setEq, nth, take, drop, update, indexOf, head, tail, filterIdx,
        indexOfFp, integerCopies, flatten, chunk, rep, splitVarlim, split, integersList, zip, zipIndex]
  · intro x val nb_copies xs
    induction val generalizing x nb_copies xs <;> grind [setEq, nth, take, drop, update, indexOf, head, tail,
        filterIdx, indexOfFp, integerCopies, flatten, chunk, rep, splitVarlim, split, integersList, zip, zipIndex]
  · intro xs ys val nb_copies_xs nb_copies_ys
    induction val generalizing xs ys nb_copies_xs nb_copies_ys <;> grind [setEq, nth, take, drop, update, indexOf,
        head, tail, filterIdx, indexOfFp, integerCopies, flatten, chunk, rep, splitVarlim, split, integersList, zip,
        zipIndex]
  · intro xs h
    rw [flatten_eq, List.flatten_eq_nil_iff]
    exact fun l hl => (h l hl).symm

/-- The hypotheses of `filter_idx_take` and `integer_copies_append` hold: the second even number of the list is at position 3,
and 0 and 1 occur twice in one list and once in the other. -/
example :
    ((take 3 [2, 1, 3, 4, 6]).countP (fun n => n % 2 == 0) = 1 ∧ nth 0 3 [2, 1, 3, 4, 6] = 4) ∧
    filterIdx [2, 1, 3, 4, 6] 10 (fun n => n % 2 == 0) = [10, 13, 14] ∧
    (integerCopies 1 2 [0, 1, 1, 0, 5] ∧ integerCopies 1 1 [1, 0]) := by
  simp only [integerCopies]; decide

/-- C93, listutils-lemmas.gh: parts of a list, and repeated elements. -/
theorem C93_chunks {α : Type} :
    -- listutils-lemmas.gh:95-97 chunk_zerosize
    (∀ (xs : List α) (n : Int), chunk xs n n = []) ∧
    -- listutils-lemmas.gh:99-101 chunk_length
    (∀ (xs : List α) (b e : Int), 0 ≤ b → b ≤ e → e ≤ (xs.length : Int) → ((chunk xs b e).length : Int) = e - b) ∧
    -- listutils-lemmas.gh:103-105 chunk_shift
    (∀ (xs : List α) (b e n : Int), 0 ≤ b → 0 ≤ n → n ≤ b → b + n ≤ (xs.length : Int) → chunk xs b e = chunk (drop n
      xs) (b - n) (e - n)) ∧
    -- listutils-lemmas.gh:107-109 chunk_append
    (∀ (d : α) (xs : List α) (b e : Int), 0 ≤ b → b ≤ e → e < (xs.length : Int) → chunk xs b (e + 1) = chunk xs b e ++
      [nth d e xs]) ∧
    -- listutils-lemmas.gh:111-113 chunk_take
    (∀ (xs : List α) (b end1 end2 : Int), 0 ≤ b → b ≤ end1 → end1 ≤ end2 → end2 ≤ (xs.length : Int) → take (end1 - b)
      (chunk xs b end2) = chunk xs b end1) ∧
    -- listutils-lemmas.gh:115-117 chunk_to_source
    (∀ (d : α) (xs : List α) (b e i : Int), 0 ≤ b → b ≤ e → e ≤ (xs.length : Int) → 0 ≤ i → i < e - b → nth d (b + i)
      xs = nth d i (chunk xs b e)) ∧
    -- listutils-lemmas.gh:119-121 chunk_update_unrelevant
    (∀ (xs : List α) (b e i : Int) (val : α), 0 ≤ b → b ≤ e → e ≤ i → i < (xs.length : Int) → chunk xs b e = chunk
      (update i val xs) b e) ∧
    -- listutils-lemmas.gh:125-127 length_repeat
    (∀ (elem : α) (n : Nat), ((rep elem n).length : Int) = (n : Int)) ∧
    -- listutils-lemmas.gh:129-131 repeat_content
    (∀ (elem : α) (n : Nat), (∀ z ∈ rep elem n, elem = z)) ∧
    -- listutils-lemmas.gh:133-135 repeat_add
    (∀ (elem : α) (n n_pred : Nat), n = n_pred + 1 → elem :: rep elem n_pred = rep elem n) ∧
    -- listutils-lemmas.gh:137-139 repeat_nth
    (∀ (d elem : α) (n : Nat) (i : Int), 0 ≤ i → i < (n : Int) → nth d i (rep elem n) = elem) ∧
    -- listutils-lemmas.gh:141-143 repeat_tail
    (∀ (dl : List α) (elem : α) (n n_pred : Nat), n = n_pred + 1 → tail dl (rep elem n) = rep elem n_pred) ∧
    -- listutils-lemmas.gh:145-147 repeat_append
    (∀ (elem : α) (n : Nat), rep elem n ++ [elem] = rep elem (n + 1)) := by
  refine ⟨?_, ?_, ?_, ?_, ?_, ?_, ?_, ?_, ?_, ?_, ?_, ?_, ?_⟩
  · intros
    grind [chunk, nth_pos, take_pos, drop_pos, update_pos, head, tail]
  · intros
    grind [chunk, nth_pos, take_pos, drop_pos, update_pos, head, tail]
  · intro xs b e n h0 h1 h2 _
    unfold chunk
    rw [drop_drop' _ _ (by omega) h1, show e - n - (b - n) = e - b by omega, show b - n + n = b by omega]
  · intro d xs b e h0 h1 h2
    unfold chunk
    have h3 : (0 : Int) ≤ e - b := by omega
    have h4 : e + 1 - b = (e - b) + 1 := by omega
    have h5 : e - b < ((drop b xs).length : Int) := by rw [drop_pos _ h0, List.length_drop]; omega
    rw [h4, take_succ_nth d _ _ h3 h5]
    congr 2
    rw [drop_pos _ h0, nth_pos _ _ h3, nth_pos _ _ (by omega), List.getD_eq_getElem?_getD,
        List.getD_eq_getElem?_getD, List.getElem?_drop]
    congr 2
    omega
  · intros
    grind [chunk, nth_pos, take_pos, drop_pos, update_pos, head, tail]
  · intros
    grind [chunk, nth_pos, take_pos, drop_pos, update_pos, head, tail]
  · intro xs b e i v h0 h1 h2 h3
    exact (take_drop_update xs (e - b) b i v (by omega) h0 (by omega)).symm
  · intro elem n
    induction n generalizing elem <;> grind [setEq, nth, take, drop, update, indexOf, head, tail, filterIdx,
        indexOfFp, integerCopies, flatten, chunk, rep, splitVarlim, split, integersList, zip, zipIndex]
  · intro elem n
    induction n generalizing elem <;> grind [setEq, nth, take, drop, update, indexOf, head, tail, filterIdx,
        indexOfFp, integerCopies, flatten, chunk, rep, splitVarlim, split, integersList, zip, zipIndex]
  · intro elem n
    induction n generalizing elem <;> grind [setEq, nth, take, drop, update, indexOf, head, tail, filterIdx,
        indexOfFp, integerCopies, flatten, chunk, rep, splitVarlim, split, integersList, zip, zipIndex]
  · intro d elem n i
    induction n generalizing elem i <;> grind [setEq, nth, take, drop, update, indexOf, head, tail, filterIdx,
        indexOfFp, integerCopies, flatten, chunk, rep, splitVarlim, split, integersList, zip, zipIndex]
  · intro dl elem n
    induction n generalizing elem <;> grind [setEq, nth, take, drop, update, indexOf, head, tail, filterIdx,
        indexOfFp, integerCopies, flatten, chunk, rep, splitVarlim, split, integersList, zip, zipIndex]
  · intro elem n
    induction n generalizing elem <;> grind [setEq, nth, take, drop, update, indexOf, head, tail, filterIdx,
        indexOfFp, integerCopies, flatten, chunk, rep, splitVarlim, split, integersList, zip, zipIndex]

/-- The hypotheses of `chunk_shift`, `chunk_append` and `chunk_update_unrelevant` hold of a chunk in the middle of a list. -/
example :
    chunk [1, 2, 3, 4, 5] 1 3 = [2, 3] ∧ ((0 : Int) ≤ 1 ∧ (1 : Int) ≤ 1 ∧ (1 : Int) + 1 ≤ [1, 2, 3, 4, 5].length) ∧
    ((1 : Int) ≤ 3 ∧ (3 : Int) < [1, 2, 3, 4, 5].length) := by decide

/-- C93, listutils-lemmas.gh: cutting a list into parts of one size. -/
theorem C93_splits {α : Type} :
    -- listutils-lemmas.gh:151-153 length_split_varlim
    (∀ (xs : List α) (n : Int) (limits : List Int), (xs.length : Int) = (limits.length : Int) * n → 0 ≤ n →
      ((splitVarlim xs n limits).length : Int) = (limits.length : Int)) ∧
    -- listutils-lemmas.gh:155-160 split_varlim_nolim
    (∀ (xs : List α) (n : Int) (limits : List Int), (∀ z ∈ limits, 0 = z) → 0 ≤ n → n * (limits.length : Int) =
      (xs.length : Int) → (∀ z ∈ splitVarlim xs n limits, [] = z)) ∧
    -- listutils-lemmas.gh:162-164 split_varlim_chunk_equiv
    (∀ (dl : List α) (di : Int) (xs : List α) (n : Int) (limits : List Int) (j : Int), 0 ≤ n → 0 ≤ j → j <
      (limits.length : Int) → n * (j + 1) ≤ (xs.length : Int) → nth dl j (splitVarlim xs n limits) = chunk xs (n * j)
      ((n * j) + nth di j limits)) ∧
    -- listutils-lemmas.gh:166-172 split_varlim_update
    (∀ (di : Int) (dl xs : List α) (n : Int) (limits1 limits2 : List Int) (i : Int), 0 ≤ i → i < (limits1.length :
      Int) → limits2 = update i (nth di i limits2) limits1 → nth di i limits1 ≠ nth di i limits2 → splitVarlim xs n
      limits2 = update i (nth dl i (splitVarlim xs n limits2)) (splitVarlim xs n limits1)) ∧
    -- listutils-lemmas.gh:174-182 split_varlim_update_unrelevant
    (∀ (d : α) (di : Int) (xs1 xs2 : List α) (limits : List Int) (n i j : Int) (new_val : α), xs2 = update ((n * j) +
      i) new_val xs1 → nth d ((n * j) + i) xs2 = new_val → nth di j limits ≤ i → (∀ z ∈ limits, 0 ≤ z) → (∀ z ∈
      limits, z ≤ n) → (xs1.length : Int) = n * (limits.length : Int) → 0 ≤ i → i < n → 0 ≤ j → j < (limits.length :
      Int) → splitVarlim xs1 n limits = splitVarlim xs2 n limits) ∧
    -- listutils-lemmas.gh:184-186 split_varlim_split_equiv
    (∀ (xs : List α) (limits : List Int) (n : Int) (nb_split : Nat), (∀ z ∈ limits, n = z) → (limits.length : Int) =
      (nb_split : Int) → splitVarlim xs n limits = split xs nb_split n) ∧
    -- listutils-lemmas.gh:190-192 length_split
    (∀ (xs : List α) (nb_split : Nat) (n : Int), (xs.length : Int) = (nb_split : Int) * n → 0 ≤ n → ((split xs
      nb_split n).length : Int) = (nb_split : Int)) ∧
    -- listutils-lemmas.gh:194-196 length_split_nth
    (∀ (dl xs : List α) (nb_split : Nat) (n i : Int), (xs.length : Int) = (nb_split : Int) * n → 0 ≤ n → 0 ≤ i → i <
      (nb_split : Int) → ((nth dl i (split xs nb_split n)).length : Int) = n) ∧
    -- listutils-lemmas.gh:198-200 length_split_forall
    (∀ (xs : List α) (nb_split : Nat) (n : Int), (xs.length : Int) = (nb_split : Int) * n → 0 ≤ n → n ≤ (xs.length :
      Int) → (∀ z ∈ split xs nb_split n, n = (z.length : Int))) ∧
    -- listutils-lemmas.gh:202-204 split_chunk_equiv
    (∀ (dl xs : List α) (nb_split : Nat) (n i : Int), 0 < n → 0 ≤ i → i < (nb_split : Int) → n * (i + 1) ≤ (xs.length
      : Int) → nth dl i (split xs nb_split n) = chunk xs (n * i) (n * (i + 1))) ∧
    -- listutils-lemmas.gh:206-210 split_to_source
    (∀ (d : α) (dl xs : List α) (nb_split : Nat) (n i j : Int), (xs.length : Int) = (nb_split : Int) * n → 0 ≤ n → 0 ≤
      i → i < n → 0 ≤ j → j < (nb_split : Int) → nth d i (nth dl j (split xs nb_split n)) = nth d ((j * n) + i) xs) ∧
    -- listutils-lemmas.gh:212-214 split_append
    (∀ (xs : List α) (nb_split : Nat) (n : Int), ((nb_split + 1 : Nat) : Int) * n ≤ (xs.length : Int) → 0 < n → split
      xs (nb_split + 1) n = split xs nb_split n ++ [chunk xs (n * (nb_split : Int)) (n * ((nb_split : Int) + 1))]) ∧
    -- listutils-lemmas.gh:216-218 split_update_unrelevant
    (∀ (xs : List α) (nb_split : Nat) (n i : Int) (val : α), 0 < n → (nb_split : Int) * n ≤ i → i < (xs.length : Int)
      → split xs nb_split n = split (update i val xs) nb_split n) := by
  refine ⟨?_, ?_, ?_, ?_, ?_, ?_, ?_, ?_, ?_, ?_, ?_, ?_, ?_⟩
  · intro xs n limits _ h
    rw [splitVarlim_eq _ _ h]
    simp
  · intro xs n limits h0 hn _ z hz
    rw [splitVarlim_eq _ _ hn] at hz
    obtain ⟨k, hk, rfl⟩ := List.mem_map.1 hz
    have hk := List.mem_range.1 hk
    have : limits.getD k 0 = 0 := by rw [List.getD_eq_getElem?_getD, List.getElem?_eq_getElem hk]; exact (h0 _
        (List.getElem_mem _)).symm
    rw [this, take_zero]
  · intro dl di xs n limits j hn h0 h1 _
    rw [splitVarlim_eq _ _ hn, nth_map_range dl _ _ j h0 h1, nthI di limits j h0 h1]
    unfold chunk
    rw [Int.toNat_of_nonneg h0]
    congr 1
    omega
  · intro di dl xs n limits1 limits2 i
    induction limits1 generalizing xs n limits2 i <;> grind [setEq, nth, take, drop, update, indexOf, head, tail,
        filterIdx, indexOfFp, integerCopies, flatten, chunk, rep, splitVarlim, split, integersList, zip, zipIndex]
  · intro d di xs1 xs2 limits n i j v h1 _ h3 h4 h5 _ h7 h8 h9 h10
    rw [h1]
    exact splitVarlim_update di xs1 limits n i j v h3 h4 h5 h7 h8 h9 h10
  · intro xs limits n nb h1 h2
    rw [split_eq_varlim]
    congr 1
    exact List.eq_replicate_iff.2 ⟨by omega, fun z hz => (h1 z hz).symm⟩
  · intro xs nb n _ h
    rw [split_eq _ _ h]
    simp
  · intro dl xs nb n i h1 h2 h3 h4
    rw [split_eq _ _ h2, nth_map_range dl _ _ i h3 h4, take_drop_length _ _ _ h2 (Int.mul_nonneg h2 (by omega))]
    rw [h1, Int.toNat_of_nonneg h3]
    nlinarith
  · intro xs nb n h1 h2 _ z hz
    rw [split_eq _ _ h2] at hz
    obtain ⟨k, hk, rfl⟩ := List.mem_map.1 hz
    have hk := List.mem_range.1 hk
    rw [take_drop_length _ _ _ h2 (Int.mul_nonneg h2 (by omega))]
    have : (k : Int) + 1 ≤ nb := by omega
    rw [h1]
    nlinarith
  · intro dl xs nb n i h1 h2 h3 _
    rw [split_eq _ _ (by omega), nth_map_range dl _ _ i h2 h3]
    unfold chunk
    rw [Int.toNat_of_nonneg h2]
    congr 1
    rw [Int.mul_add]
    omega
  · intro d dl xs nb n i j _ h1 h2 h3 h4 h5
    rw [split_eq _ _ h1, nth_map_range dl _ _ j h4 h5, nth_take_drop d xs n _ i h3 h2 (Int.mul_nonneg h1 (by
        omega)), Int.toNat_of_nonneg h4, Int.mul_comm]
  · intro xs nb n _ h
    rw [split_eq _ _ (by omega), split_eq _ _ (by omega), List.range_succ, List.map_append]
    unfold chunk
    rw [show n * ((nb : Int) + 1) - n * nb = n by rw [Int.mul_add]; omega]
    rfl
  · intro xs nb n i v h1 h2 _
    rw [split_eq _ _ (by omega), split_eq _ _ (by omega)]
    apply List.map_congr_left
    intro k hk
    have hk := List.mem_range.1 hk
    refine (take_drop_update xs n _ i v (by omega) (Int.mul_nonneg (by omega) (by omega)) (Or.inr ?_)).symm
    have : (k : Int) + 1 ≤ nb := by omega
    nlinarith

/-- The hypotheses of `split_varlim_update_unrelevant` and `split_varlim_update` hold: an element that its part does not keep,
and a limit that changes. -/
example :
    ([1, 9, 3, 4] = update (2 * 0 + 1) 9 [1, 2, 3, 4] ∧ nth 0 (2 * 0 + 1) [1, 9, 3, 4] = 9 ∧ nth 0 0 [1, 2] ≤ 1 ∧
      ([1, 2, 3, 4].length : Int) = 2 * ([1, 2] : List Int).length) ∧
    splitVarlim [1, 2, 3, 4] 2 [1, 2] = [[1], [3, 4]] ∧
    (([1, 0] : List Int) = update 1 (nth 7 1 [1, 0]) [1, 2] ∧ nth 7 1 ([1, 2] : List Int) ≠ nth 7 1 [1, 0]) := by decide

/-- C93, listutils-lemmas.gh: lists of integers, and lists whose elements are numbered. -/
theorem C93_numbered {α β : Type} :
    -- listutils-lemmas.gh:222-224 length_integers_list
    (∀ (cnt : Nat) (ix : Int), ((integersList cnt ix).length : Int) = (cnt : Int)) ∧
    -- listutils-lemmas.gh:226-228 val_integers_list
    (∀ (di : Int) (cnt : Nat) (ix i : Int), 0 ≤ i → i < (cnt : Int) → nth di i (integersList cnt ix) = ix + i) ∧
    -- listutils-lemmas.gh:230-232 integers_list_bounds
    (∀ (cnt : Nat) (ix : Int), (∀ z ∈ integersList cnt ix, ix ≤ z) ∧ (∀ z ∈ integersList cnt ix, z < ix + (cnt :
      Int))) ∧
    -- listutils-lemmas.gh:234-236 integers_list_append
    (∀ (cnt1 cnt2 : Nat) (ix : Int), integersList (((cnt1 : Int) + (cnt2 : Int)).toNat) ix = integersList cnt1 ix ++
      integersList cnt2 (ix + (cnt1 : Int))) ∧
    -- listutils-lemmas.gh:238-240 integers_list_distinct
    (∀ (cnt : Nat) (ix : Int), (integersList cnt ix).Nodup) ∧
    -- listutils-lemmas.gh:242-244 integers_list_subset
    (∀ (xs : List Int) (low_bound up_bound : Int), (∀ z ∈ xs, low_bound ≤ z) → (∀ z ∈ xs, z < up_bound) → low_bound ≤
      up_bound → xs ⊆ integersList ((up_bound - low_bound).toNat) low_bound) ∧
    -- listutils-lemmas.gh:248-250 length_zip
    (∀ (xs : List α) (ys : List β), (xs.length : Int) = (ys.length : Int) → ((zip xs ys).length : Int) = (xs.length :
      Int)) ∧
    -- listutils-lemmas.gh:252-254 val_zip
    (∀ (dp : α × β) (d : α) (d2 : β) (xs : List α) (ys : List β) (i : Int), 0 ≤ i → i < (xs.length : Int) → (xs.length
      : Int) = (ys.length : Int) → nth dp i (zip xs ys) = (nth d i xs, nth d2 i ys)) ∧
    -- listutils-lemmas.gh:256-258 zip_unzip_fst
    (∀ (xs : List α) (ys : List β), (xs.length : Int) = (ys.length : Int) → xs = (zip xs ys).map Prod.fst) ∧
    -- listutils-lemmas.gh:260-262 zip_unzip_snd
    (∀ (xs : List α) (ys : List β), (xs.length : Int) = (ys.length : Int) → ys = (zip xs ys).map Prod.snd) ∧
    -- listutils-lemmas.gh:264-266 zip_append
    (∀ (xs1 : List α) (ys1 : List β) (xs2 : List α) (ys2 : List β), (xs1.length : Int) = (ys1.length : Int) →
      (xs2.length : Int) = (ys2.length : Int) → zip (xs1 ++ xs2) (ys1 ++ ys2) = zip xs1 ys1 ++ zip xs2 ys2) ∧
    -- listutils-lemmas.gh:270-272 length_zip_index
    (∀ (xs : List α) (idx : Int), ((zipIndex xs idx).length : Int) = (xs.length : Int)) ∧
    -- listutils-lemmas.gh:274-276 val_zip_index
    (∀ (dp : Int × α) (d : α) (xs : List α) (idx i : Int), 0 ≤ i → i < (xs.length : Int) → nth dp i (zipIndex xs idx)
      = (i + idx, nth d i xs)) ∧
    -- listutils-lemmas.gh:278-280 zip_index_unzip
    (∀ (xs : List α) (idx : Int), xs = (zipIndex xs idx).map Prod.snd) ∧
    -- listutils-lemmas.gh:282-284 zip_index_append
    (∀ (xs ys : List α), zipIndex (xs ++ ys) 0 = zipIndex xs 0 ++ zipIndex ys (xs.length : Int)) ∧
    -- listutils-lemmas.gh:286-288 zip_index_bounds
    (∀ (xs : List α) (idx : Int), (∀ z ∈ (zipIndex xs idx).map Prod.fst, idx ≤ z) ∧ (∀ z ∈ (zipIndex xs idx).map
      Prod.fst, z < idx + (xs.length : Int))) ∧
    -- listutils-lemmas.gh:290-292 zip_index_distinct
    (∀ (xs : List α) (idx : Int), ((zipIndex xs idx).map Prod.fst).Nodup) := by
  refine ⟨?_, ?_, ?_, ?_, ?_, ?_, ?_, ?_, ?_, ?_, ?_, ?_, ?_, ?_, ?_, ?_, ?_⟩
  · intro cnt ix
    induction cnt generalizing ix <;> grind [setEq, nth, take, drop, update, indexOf, head, tail, filterIdx,
        indexOfFp, integerCopies, flatten, chunk, rep, splitVarlim, split, integersList, zip, zipIndex]
  · intro di cnt ix i
    induction cnt generalizing ix i <;> grind [setEq, nth, take, drop, update, indexOf, head, tail, filterIdx,
        indexOfFp, integerCopies, flatten, chunk, rep, splitVarlim, split, integersList, zip, zipIndex]
  · intro cnt ix
    induction cnt generalizing ix <;> grind [setEq, nth, take, drop, update, indexOf, head, tail, filterIdx,
        indexOfFp, integerCopies, flatten, chunk, rep, splitVarlim, split, integersList, zip, zipIndex]
  · intro c1 c2 ix
    rw [show ((c1 : Int) + (c2 : Int)).toNat = c1 + c2 by omega]
    simp only [integersList_eq, List.range_add, List.map_append, List.map_map]
    congr 1
    apply List.map_congr_left
    intro i _
    simp only [Function.comp]
    push_cast
    omega
  · simp only [flatten_eq, zip_eq, integersList_eq, zipIndex]
    intros
    grind [nth_pos, List.nodup_range]
  · intro xs lo up h1 h2 h3 z hz
    rw [integersList_eq, List.mem_map]
    have := h1 z hz
    have := h2 z hz
    exact ⟨(z - lo).toNat, List.mem_range.2 (by omega), by omega⟩
  · simp only [flatten_eq, zip_eq, integersList_eq, zipIndex]
    intros
    grind [nth_pos, List.nodup_range]
  · simp only [flatten_eq, zip_eq, integersList_eq, zipIndex]
    intros
    grind [nth_pos, List.nodup_range]
  · intro xs ys h
    rw [zip_eq, List.map_fst_zip (by omega)]
  · intro xs ys h
    rw [zip_eq, List.map_snd_zip (by omega)]
  · simp only [flatten_eq, zip_eq, integersList_eq, zipIndex]
    intros
    grind [nth_pos, List.nodup_range]
  · simp only [flatten_eq, zip_eq, integersList_eq, zipIndex]
    intros
    grind [nth_pos, List.nodup_range]
  · simp only [flatten_eq, zip_eq, integersList_eq, zipIndex]
    intros
    grind [nth_pos, List.nodup_range]
  · intro xs idx
    rw [zipIndex, zip_eq, List.map_snd_zip (by simp [integersList_eq])]
  · intro xs ys
    simp only [zipIndex, zip_eq, integersList_eq, List.length_append, List.range_add, List.map_append, List.map_map]
    rw [List.zip_append (by simp)]
    congr 2
    apply List.map_congr_left
    intro i _
    simp
  · intro xs idx
    have : (zipIndex xs idx).map Prod.fst = integersList xs.length idx := by rw [zipIndex, zip_eq, List.map_fst_zip
        (by simp [integersList_eq])]
    rw [this, integersList_eq]
    simp only [List.mem_map, List.mem_range]
    constructor <;> (rintro z ⟨i, h, rfl⟩; omega)
  · intro xs idx
    rw [zipIndex, zip_eq, List.map_fst_zip (by simp [integersList_eq]), integersList_eq]
    exact List.Nodup.map (fun a b h => by simpa using h) List.nodup_range

/-- The hypotheses of `integers_list_subset` and `val_zip` hold. -/
example :
    ((∀ z ∈ [5, 3, 5], (3 : Int) ≤ z) ∧ (∀ z ∈ [5, 3, 5], z < (6 : Int)) ∧ integersList 3 3 = [3, 4, 5]) ∧
    (1 : Int) < ([8, 9] : List Nat).length ∧ zip [8, 9] ['a', 'b'] = [(8, 'a'), (9, 'b')] ∧
    zipIndex ['a', 'b'] 4 = [(4, 'a'), (5, 'b')] := by decide

/-- C93, natlist.gh: lists of natural numbers below a limit. -/
theorem C93_naturals :
    -- natlist.gh:8-11 nat_lt_not_eq_upper_lesser
    (∀ (tails : List Nat) (lim : Nat), (∀ z ∈ tails, (z : Int) < ((lim + 1 : Nat) : Int)) → lim ∉ tails → (∀ z ∈
      tails, (z : Int) < (lim : Int))) ∧
    -- natlist.gh:24-27 nat_lt_remove_big
    (∀ (tails : List Nat) (lim : Nat), (∀ z ∈ tails, (z : Int) < ((lim + 1 : Nat) : Int)) → tails.Nodup → (∀ z ∈
      tails.erase lim, (z : Int) < (lim : Int))) ∧
    -- natlist.gh:44-47 nat_lt_distinct_few_rec
    (∀ (tails : List Nat) (lim : Nat), (∀ z ∈ tails, (z : Int) < (lim : Int)) → tails.Nodup → (tails.length : Int) ≤
      (lim : Int)) ∧
    -- natlist.gh:68-72 nat_lt_distinct_few
    (∀ (tails : List Nat) (lim : Int), (∀ z ∈ tails, (z : Int) < lim) → tails.Nodup → 0 ≤ lim → (tails.length : Int) ≤
      lim) := by
  refine ⟨?_, ?_, ?_, ?_⟩
  · intros
    grind [setEq, disj_iff, head, tail]
  · intros
    grind [setEq, disj_iff, head, tail]
  · intro tails lim h1 h2
    exact_mod_cast nodup_lt_length tails lim (fun z hz => by exact_mod_cast h1 z hz) h2
  · intro tails lim h1 h2 h3
    have := nodup_lt_length tails lim.toNat (fun z hz => by have := h1 z hz; omega) h2
    omega

/-- The hypotheses of `nat_lt_not_eq_upper_lesser` and `nat_lt_remove_big` hold. -/
example :
    ((∀ z ∈ [2, 0, 2], (z : Int) < ((3 + 1 : Nat) : Int)) ∧ 3 ∉ [2, 0, 2]) ∧
    ((∀ z ∈ [2, 3, 0], (z : Int) < ((3 + 1 : Nat) : Int)) ∧ [2, 3, 0].Nodup) := by decide

/-- C93, what searching and repeating give: `index_of_fp` finds the first element that satisfies the condition, and nothing
exactly if none does; `repeat` gives so many copies. -/
theorem C93_search {α : Type} (xs : List α) (idx : Int) (fp : α → Bool) (elem : α) (n : Nat) :
    (∀ i : Nat, indexOfFp xs idx fp = some (idx + i) ↔
      (∃ x, xs[i]? = some x ∧ fp x = true) ∧ ∀ j < i, ∀ y, xs[j]? = some y → fp y = false) ∧
    (indexOfFp xs idx fp = none ↔ ∀ x ∈ xs, fp x = false) ∧
    rep elem n = List.replicate n elem := by
  refine ⟨?_, ?_, rep_eq elem n⟩
  · induction xs generalizing idx with
    | nil => simp [indexOfFp]
    | cons x xs ih =>
      intro i
      unfold indexOfFp
      cases hx : fp x with
      | true =>
        simp only [if_true, Option.some.injEq]
        constructor
        · intro h
          obtain rfl : i = 0 := by omega
          exact ⟨⟨x, rfl, hx⟩, by omega⟩
        · rintro ⟨-, h⟩
          cases i with
          | zero => simp
          | succ i => have := h 0 (by omega) x rfl; simp_all
      | false =>
        simp only [Bool.false_eq_true, if_false]
        cases i with
        | zero =>
          constructor
          · intro h
            have hge : ∀ (l : List α) (k r : Int), indexOfFp l k fp = some r → k ≤ r := by
              intro l
              induction l with
              | nil => simp [indexOfFp]
              | cons a l ih' => intro k r; unfold indexOfFp; split <;> grind
            have := hge _ _ _ h
            omega
          · rintro ⟨⟨y, hy, hf⟩, -⟩
            simp at hy; subst hy; simp_all
        | succ i =>
          have := ih (idx + 1) i
          rw [show idx + 1 + (i : Int) = idx + ((i + 1 : Nat) : Int) by omega] at this
          rw [this]
          constructor
          · rintro ⟨h1, h2⟩
            refine ⟨h1, fun j hj y hy => ?_⟩
            cases j with
            | zero => simp at hy; subst hy; exact hx
            | succ j => exact h2 j (by omega) y hy
          · rintro ⟨h1, h2⟩
            exact ⟨h1, fun j hj y hy => h2 (j + 1) (by omega) y hy⟩
  · induction xs generalizing idx with
    | nil => simp [indexOfFp]
    | cons x xs ih => unfold indexOfFp; split <;> simp_all

example : indexOfFp [4, 7, 9, 7] 10 (fun x : Nat => x == 7) = some (10 + (1 : Nat)) ∧ indexOfFp [4, 9] 10 (fun x : Nat => x == 7) = none := by decide

end Verif.Props
