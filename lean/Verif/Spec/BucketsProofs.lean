/- Where the chains of Spec/Buckets are, bucket by bucket: closed forms used by Props/Buckets and Env/MapPredProofs. -/
import Verif.Spec.Buckets
import Mathlib.Data.List.Basic
import Mathlib.Tactic.Ring
import Mathlib.Tactic.Linarith
import Mathlib.Tactic.ByContra

set_option autoImplicit false

namespace Verif.Buckets
open Verif.ProofLib (loopFp)

/-! ### Lists -/

section
variable {α : Type}

theorem nth_nat (d : α) (n : Nat) (xs : List α) : nth d (n : Int) xs = xs.getD n d := by
  induction xs generalizing n with
  | nil => simp [nth]
  | cons x xs ih =>
    cases n with
    | zero => simp [nth]
    | succ n =>
      have h : ((n + 1 : Nat) : Int) - 1 = (n : Int) := by omega
      have h0 : ((n + 1 : Nat) : Int) ≠ 0 := by omega
      simp only [nth, h0, if_false, h, ih, List.getD_cons_succ]

theorem nth_neg (d : α) (n : Int) (hn : n < 0) (xs : List α) : nth d n xs = d := by
  induction xs generalizing n with
  | nil => rfl
  | cons x xs ih =>
    have h0 : n ≠ 0 := by omega
    simp only [nth, h0, if_false]
    exact ih _ (by omega)

theorem take_nat (n : Nat) (xs : List α) : take (n : Int) xs = xs.take n := by
  induction xs generalizing n with
  | nil => simp [take]
  | cons x xs ih =>
    cases n with
    | zero => simp [take]
    | succ n =>
      have h : ((n + 1 : Nat) : Int) - 1 = (n : Int) := by omega
      have h0 : ((n + 1 : Nat) : Int) ≠ 0 := by omega
      simp only [take, h0, if_false, h, ih, List.take_succ_cons]

theorem take_neg (n : Int) (hn : n < 0) (xs : List α) : take n xs = xs := by
  induction xs generalizing n with
  | nil => rfl
  | cons x xs ih =>
    have h0 : n ≠ 0 := by omega
    simp only [take, h0, if_false]
    rw [ih _ (by omega)]

theorem drop_nat (n : Nat) (xs : List α) : drop (n : Int) xs = xs.drop n := by
  induction xs generalizing n with
  | nil => simp [drop]
  | cons x xs ih =>
    cases n with
    | zero => simp [drop]
    | succ n =>
      have h : ((n + 1 : Nat) : Int) - 1 = (n : Int) := by omega
      have h0 : ((n + 1 : Nat) : Int) ≠ 0 := by omega
      simp only [drop, h0, if_false, h, ih, List.drop_succ_cons]

theorem update_nat (n : Nat) (y : α) (xs : List α) : update (n : Int) y xs = xs.set n y := by
  induction xs generalizing n with
  | nil => simp [update]
  | cons x xs ih =>
    cases n with
    | zero => simp [update]
    | succ n =>
      have h : ((n + 1 : Nat) : Int) - 1 = (n : Int) := by omega
      have h0 : ((n + 1 : Nat) : Int) ≠ 0 := by omega
      simp only [update, h0, if_false, h, ih, List.set_cons_succ]

theorem update_neg (n : Int) (hn : n < 0) (y : α) (xs : List α) : update n y xs = xs := by
  induction xs generalizing n with
  | nil => rfl
  | cons x xs ih =>
    have h0 : n ≠ 0 := by omega
    simp only [update, h0, if_false]
    rw [ih _ (by omega)]

theorem indexOf_getElem [DecidableEq α] (y : α) (xs : List α) (h : y ∈ xs) :
    ∃ i : Nat, indexOf y xs = (i : Int) ∧ ∃ hi : i < xs.length, xs[i] = y := by
  induction xs with
  | nil => cases h
  | cons x xs ih =>
    by_cases hx : x = y
    · exact ⟨0, by simp [indexOf, hx], by simp, by simpa using hx⟩
    · obtain ⟨i, h1, h2, h3⟩ := ih (by
        rcases List.mem_cons.1 h with h' | h'
        · exact absurd h'.symm hx
        · exact h')
      refine ⟨i + 1, ?_, by simp; omega, by simpa using h3⟩
      simp only [indexOf, hx, if_false, h1]
      omega

theorem upTo_iff (prop : Int → Prop) (n : Nat) : upTo prop n ↔ ∀ m : Nat, m < n → prop (m : Int) := by
  induction n with
  | zero => simp [upTo]
  | succ n ih =>
    simp only [upTo, ih]
    constructor
    · rintro ⟨h1, h2⟩ m hm
      rcases Nat.lt_succ_iff_lt_or_eq.1 hm with h | h
      · exact h2 m h
      · exact h ▸ h1
    · intro h
      exact ⟨h n (by omega), fun m hm => h m (by omega)⟩

theorem repeatN_eq (x : α) (n : Nat) : repeatN x n = List.replicate n x := by
  induction n with
  | zero => rfl
  | succ n ih => simp [repeatN, ih, List.replicate_succ]

end

theorem loopFp_nat (a n : Nat) (hn : 0 < n) : loopFp (a : Int) (n : Int) = ((a % n : Nat) : Int) := by
  unfold loopFp
  rw [Int.tmod_eq_emod_of_nonneg (a := (a : Int)) (by omega)]
  have h1 : 0 ≤ (a : Int) % (n : Int) + n := by
    have := Int.emod_nonneg (a : Int) (b := (n : Int)) (by omega)
    omega
  rw [Int.tmod_eq_emod_of_nonneg h1, Int.add_emod_right, Int.emod_emod_of_dvd _ (dvd_refl _)]
  exact (Int.natCast_mod a n).symm

/-! ### The accumulators -/

section
variable {κ : Type}

/-- The chains of a list that are at least `t` long, with what is left of them `t` buckets further. -/
def adv (t : Nat) (l : List (κ × Nat)) : List (κ × Nat) :=
  l.filterMap fun p => if t ≤ p.2 then some (p.1, p.2 - t) else none

theorem adv_zero (l : List (κ × Nat)) : adv 0 l = l := by
  induction l with
  | nil => rfl
  | cons p l ih =>
    have h : adv 0 (p :: l) = p :: adv 0 l := by simp [adv]
    rw [h, ih]

theorem adv_append (t : Nat) (l m : List (κ × Nat)) : adv t (l ++ m) = adv t l ++ adv t m := by
  simp [adv, List.filterMap_append]

theorem adv_adv (s t : Nat) (l : List (κ × Nat)) : adv s (adv t l) = adv (t + s) l := by
  induction l with
  | nil => rfl
  | cons p l ih =>
    by_cases h : t ≤ p.2
    · have e1 : adv t (p :: l) = (p.1, p.2 - t) :: adv t l := by simp [adv, h]
      rw [e1]
      by_cases h' : s ≤ p.2 - t
      · have e2 : adv s ((p.1, p.2 - t) :: adv t l) = (p.1, p.2 - t - s) :: adv s (adv t l) := by simp [adv, h']
        have e3 : adv (t + s) (p :: l) = (p.1, p.2 - (t + s)) :: adv (t + s) l := by
          have : t + s ≤ p.2 := by omega
          simp [adv, this]
        rw [e2, e3, ih, Nat.sub_sub]
      · have e2 : adv s ((p.1, p.2 - t) :: adv t l) = adv s (adv t l) := by simp [adv, h']
        have e3 : adv (t + s) (p :: l) = adv (t + s) l := by
          have : ¬ t + s ≤ p.2 := by omega
          simp [adv, this]
        rw [e2, e3, ih]
    · have e1 : adv t (p :: l) = adv t l := by simp [adv, h]
      have e3 : adv (t + s) (p :: l) = adv (t + s) l := by
        have : ¬ t + s ≤ p.2 := by omega
        simp [adv, this]
      rw [e1, e3, ih]

theorem mem_adv (t : Nat) (l : List (κ × Nat)) (k : κ) (d : Nat) : (k, d) ∈ adv t l ↔ (k, d + t) ∈ l := by
  simp only [adv, List.mem_filterMap]
  constructor
  · rintro ⟨⟨k', d'⟩, h, h'⟩
    by_cases ht : t ≤ d'
    · simp only [ht, if_true, Option.some.injEq, Prod.mk.injEq] at h'
      obtain ⟨rfl, rfl⟩ := h'
      have : d' - t + t = d' := by omega
      rw [this]; exact h
    · simp [ht] at h'
  · intro h
    exact ⟨_, h, by simp⟩

theorem length_adv (t : Nat) (l : List (κ × Nat)) : (adv t l).length = l.countP fun p => decide (t ≤ p.2) := by
  induction l with
  | nil => rfl
  | cons p l ih =>
    by_cases h : t ≤ p.2
    · have e1 : adv t (p :: l) = (p.1, p.2 - t) :: adv t l := by simp [adv, h]
      simp [e1, ih, h]
    · have e1 : adv t (p :: l) = adv t l := by simp [adv, h]
      simp [e1, ih, h]

theorem adv_eq_nil (t : Nat) (l : List (κ × Nat)) (h : ∀ p ∈ l, p.2 < t) : adv t l = [] := by
  apply List.eq_nil_iff_forall_not_mem.2
  rintro ⟨k, d⟩ hm
  have := h _ ((mem_adv t l k d).1 hm)
  simp at this

theorem map_fst_adv_sublist (t : Nat) (l : List (κ × Nat)) :
    ((adv t l).map Prod.fst).Sublist (l.map Prod.fst) := by
  induction l with
  | nil => exact List.Sublist.refl _
  | cons p l ih =>
    by_cases h : t ≤ p.2
    · have e1 : adv t (p :: l) = (p.1, p.2 - t) :: adv t l := by simp [adv, h]
      rw [e1]
      exact ih.cons_cons _
    · have e1 : adv t (p :: l) = adv t l := by simp [adv, h]
      rw [e1]
      exact ih.cons _

theorem advanceAcc_eq (l : List (κ × Nat)) : advanceAcc l = adv 1 l := by
  induction l with
  | nil => rfl
  | cons p l ih =>
    obtain ⟨k, d⟩ := p
    cases d with
    | zero => simp only [advanceAcc, ih]; simp [adv]
    | succ d => simp only [advanceAcc, ih]; simp [adv]

/-- The accumulator before bucket `j`. -/
def walk (acc : List (κ × Nat)) (bs : List (Bucket κ)) : Nat → List (κ × Nat)
  | 0 => acc
  | j + 1 => advanceAcc (walk acc bs j ++ bs.getD j [])

theorem walk_cons (acc : List (κ × Nat)) (b : Bucket κ) (bs : List (Bucket κ)) (j : Nat) :
    walk acc (b :: bs) (j + 1) = walk (advanceAcc (acc ++ b)) bs j := by
  induction j with
  | zero => simp [walk]
  | succ j ih =>
    rw [walk, ih]
    simp [walk]

theorem getWraparound_eq (acc : List (κ × Nat)) (bs : List (Bucket κ)) :
    getWraparound acc bs = walk acc bs bs.length := by
  induction bs generalizing acc with
  | nil => rfl
  | cons b bs ih =>
    rw [List.length_cons, walk_cons, getWraparound, ih]
    rfl

theorem walk_closed (acc : List (κ × Nat)) (bs : List (Bucket κ)) (j : Nat) :
    walk acc bs j = adv j acc ++ (List.range j).flatMap fun i => adv (j - i) (bs.getD i []) := by
  induction j with
  | zero => simp [walk, adv_zero]
  | succ j ih =>
    rw [walk, advanceAcc_eq, adv_append, ih, adv_append, adv_adv, List.range_succ, List.flatMap_append]
    have h1 : adv 1 ((List.range j).flatMap fun i => adv (j - i) (bs.getD i [])) =
        (List.range j).flatMap fun i => adv (j + 1 - i) (bs.getD i []) := by
      have : ∀ l : List Nat, (∀ i ∈ l, i < j) →
          adv 1 (l.flatMap fun i => adv (j - i) (bs.getD i [])) = l.flatMap fun i => adv (j + 1 - i) (bs.getD i []) := by
        intro l
        induction l with
        | nil => intro _; rfl
        | cons i l ihl =>
          intro hl
          have hi := hl i (by simp)
          simp only [List.flatMap_cons, adv_append, adv_adv]
          rw [ihl fun i' h' => hl i' (by simp [h'])]
          have : j - i + 1 = j + 1 - i := by omega
          rw [this]
      exact this _ fun i hi => List.mem_range.1 hi
    rw [h1]
    simp [List.append_assoc]

theorem mem_walk (acc : List (κ × Nat)) (bs : List (Bucket κ)) (j : Nat) (k : κ) (d : Nat) :
    (k, d) ∈ walk acc bs j ↔ (k, d + j) ∈ acc ∨ ∃ i < j, (k, d + (j - i)) ∈ bs.getD i [] := by
  rw [walk_closed, List.mem_append, mem_adv]
  simp only [List.mem_flatMap, List.mem_range, mem_adv]

/-- The chains at bucket `j`, those that begin there included. -/
def at' (bs : List (Bucket κ)) (acc : List (κ × Nat)) (j : Nat) : List (κ × Nat) := walk acc bs j ++ bs.getD j []

theorem at_closed (acc : List (κ × Nat)) (bs : List (Bucket κ)) (j : Nat) :
    at' bs acc j = adv j acc ++ (List.range (j + 1)).flatMap fun i => adv (j - i) (bs.getD i []) := by
  rw [at', walk_closed, List.range_succ, List.flatMap_append]
  simp [adv_zero]

theorem mem_at (acc : List (κ × Nat)) (bs : List (Bucket κ)) (j : Nat) (k : κ) (d : Nat) :
    (k, d) ∈ at' bs acc j ↔ (k, d + j) ∈ acc ∨ ∃ i ≤ j, (k, d + (j - i)) ∈ bs.getD i [] := by
  rw [at_closed, List.mem_append, mem_adv]
  simp only [List.mem_flatMap, List.mem_range, mem_adv, Nat.lt_succ_iff]

theorem at_succ (acc : List (κ × Nat)) (b : Bucket κ) (bs : List (Bucket κ)) (j : Nat) :
    at' (b :: bs) acc (j + 1) = at' bs (advanceAcc (acc ++ b)) j := by
  simp [at', walk_cons]

theorem keysRec_length (acc : List (κ × Nat)) (bs : List (Bucket κ)) :
    (bucketsGetKeysRec acc bs).length = bs.length := by
  induction bs generalizing acc with
  | nil => rfl
  | cons b bs ih => simp [bucketsGetKeysRec, ih]

theorem chnsRec_length (acc : List (κ × Nat)) (bs : List (Bucket κ)) :
    (bucketsGetChnsRec acc bs).length = bs.length := by
  induction bs generalizing acc with
  | nil => rfl
  | cons b bs ih => simp [bucketsGetChnsRec, ih]

theorem keysRec_get (acc : List (κ × Nat)) (bs : List (Bucket κ)) (j : Nat) (hj : j < bs.length) :
    (bucketsGetKeysRec acc bs)[j]? = some (getCurrentKey (at' bs acc j)) := by
  induction bs generalizing acc j with
  | nil => simp at hj
  | cons b bs ih =>
    cases j with
    | zero => simp [bucketsGetKeysRec, at', walk, accAtThisBucket]
    | succ j =>
      simp only [bucketsGetKeysRec, List.getElem?_cons_succ, at_succ]
      exact ih _ _ (by simpa using hj)

theorem chnsRec_get (acc : List (κ × Nat)) (bs : List (Bucket κ)) (j : Nat) (hj : j < bs.length) :
    (bucketsGetChnsRec acc bs)[j]? = some ((advanceAcc (at' bs acc j)).length : Int) := by
  induction bs generalizing acc j with
  | nil => simp at hj
  | cons b bs ih =>
    cases j with
    | zero => simp [bucketsGetChnsRec, at', walk, accAtThisBucket]
    | succ j =>
      simp only [bucketsGetChnsRec, List.getElem?_cons_succ, at_succ]
      exact ih _ _ (by simpa using hj)

theorem crossingRec_get (acc : List (κ × Nat)) (bs : List (Bucket κ)) (j : Nat) (hj : j < bs.length) :
    getCrossingChainsRec acc bs (j : Int) = advanceAcc (at' bs acc j) := by
  induction bs generalizing acc j with
  | nil => simp at hj
  | cons b bs ih =>
    cases j with
    | zero => simp [getCrossingChainsRec, at', walk, accAtThisBucket]
    | succ j =>
      have h : ((j + 1 : Nat) : Int) - 1 = (j : Int) := by omega
      have h0 : ((j + 1 : Nat) : Int) ≠ 0 := by omega
      simp only [getCrossingChainsRec, h0, if_false, h, at_succ]
      exact ih _ _ (by simpa using hj)

theorem okRec_iff (bound : Int) (acc : List (κ × Nat)) (bs : List (Bucket κ)) :
    bucketsOkRec bound acc bs ↔
      (∀ j < bs.length, ((at' bs acc j).map Prod.snd).Nodup ∧ ∀ p ∈ at' bs acc j, (p.2 : Int) < bound) ∧
      ((walk acc bs bs.length).map Prod.snd).Nodup ∧ ∀ p ∈ walk acc bs bs.length, (p.2 : Int) < bound - 1 := by
  induction bs generalizing acc with
  | nil => simp [bucketsOkRec, walk]
  | cons b bs ih =>
    simp only [bucketsOkRec, ih, List.length_cons, walk_cons]
    constructor
    · rintro ⟨h1, h2, h3, h4, h5⟩
      refine ⟨?_, h4, h5⟩
      intro j hj
      cases j with
      | zero => exact ⟨h1, h2⟩
      | succ j => rw [at_succ]; exact h3 j (by omega)
    · rintro ⟨h1, h2, h3⟩
      have h0 := h1 0 (by omega)
      refine ⟨h0.1, h0.2, ?_, h2, h3⟩
      intro j hj
      have := h1 (j + 1) (by omega)
      rw [at_succ] at this
      exact this

theorem currentKey_some (l : List (κ × Nat)) (k : κ) (h : getCurrentKey l = some k) : (k, 0) ∈ l := by
  induction l with
  | nil => cases h
  | cons p l ih =>
    obtain ⟨k', d⟩ := p
    cases d with
    | zero => simp only [getCurrentKey, Option.some.injEq] at h; simp [h]
    | succ d => exact List.mem_cons_of_mem _ (ih h)

theorem currentKey_none (l : List (κ × Nat)) (h : getCurrentKey l = none) (k : κ) : (k, 0) ∉ l := by
  induction l with
  | nil => simp
  | cons p l ih =>
    obtain ⟨k', d⟩ := p
    cases d with
    | zero => simp [getCurrentKey] at h
    | succ d => simpa using ih h

theorem snd_inj (l : List (κ × Nat)) (h : (l.map Prod.snd).Nodup) (k k' : κ) (d : Nat) (h1 : (k, d) ∈ l)
    (h2 : (k', d) ∈ l) : k = k' := by
  have := List.inj_on_of_nodup_map h h1 h2 rfl
  exact (Prod.mk.inj this).1

theorem currentKey_iff (l : List (κ × Nat)) (hl : (l.map Prod.snd).Nodup) (k : κ) :
    getCurrentKey l = some k ↔ (k, 0) ∈ l := by
  constructor
  · exact currentKey_some l k
  · intro h
    cases hc : getCurrentKey l with
    | none => exact absurd h (currentKey_none l hc k)
    | some k' => rw [snd_inj l hl k' k 0 (currentKey_some l k' hc) h]

/-! ### Buckets in order -/

theorem mem_allKeys (bs : List (Bucket κ)) (k : κ) :
    k ∈ bucketsAllKeys bs ↔ ∃ (i : Nat) (d : Nat), (k, d) ∈ bs.getD i [] := by
  induction bs with
  | nil => simp [bucketsAllKeys]
  | cons b bs ih =>
    simp only [bucketsAllKeys, List.mem_append, ih, List.mem_map]
    constructor
    · rintro (⟨⟨k', d⟩, h, rfl⟩ | ⟨i, d, h⟩)
      · exact ⟨0, d, by simpa using h⟩
      · exact ⟨i + 1, d, by simpa using h⟩
    · rintro ⟨i, d, h⟩
      cases i with
      | zero => exact Or.inl ⟨(k, d), by simpa using h, rfl⟩
      | succ i => exact Or.inr ⟨i, d, by simpa using h⟩

theorem getD_lt (bs : List (Bucket κ)) (i : Nat) (p : κ × Nat) (h : p ∈ bs.getD i []) : i < bs.length := by
  by_contra hi
  rw [List.getD_eq_getElem?_getD, List.getElem?_eq_none (by omega)] at h
  cases h

/-- Distinct keys: one chain per key. -/
theorem chain_unique (bs : List (Bucket κ)) (h : (bucketsAllKeys bs).Nodup) (k : κ) (i i' d d' : Nat)
    (h1 : (k, d) ∈ bs.getD i []) (h2 : (k, d') ∈ bs.getD i' []) : i = i' ∧ d = d' := by
  induction bs generalizing i i' with
  | nil => simp at h1
  | cons b bs ih =>
    simp only [bucketsAllKeys, List.nodup_append] at h
    obtain ⟨hb, hbs, hd⟩ := h
    cases i with
    | zero =>
      cases i' with
      | zero =>
        refine ⟨rfl, ?_⟩
        have h1' : (k, d) ∈ b := by simpa using h1
        have h2' : (k, d') ∈ b := by simpa using h2
        have := List.inj_on_of_nodup_map hb h1' h2' rfl
        exact (Prod.mk.inj this).2
      | succ i' =>
        exact absurd rfl (hd k (List.mem_map.2 ⟨(k, d), by simpa using h1, rfl⟩) k
          ((mem_allKeys bs k).2 ⟨i', d', by simpa using h2⟩))
    | succ i =>
      cases i' with
      | zero =>
        exact absurd rfl (hd k (List.mem_map.2 ⟨(k, d'), by simpa using h2, rfl⟩) k
          ((mem_allKeys bs k).2 ⟨i, d, by simpa using h1⟩))
      | succ i' =>
        have := ih hbs i i' (by simpa using h1) (by simpa using h2)
        exact ⟨by omega, this.2⟩

/-- The chains that are open at the end of the list, from none at its beginning. -/
theorem mem_wrap (bs : List (Bucket κ)) (k : κ) (d : Nat) :
    (k, d) ∈ getWraparound [] bs ↔ ∃ i < bs.length, (k, d + (bs.length - i)) ∈ bs.getD i [] := by
  rw [getWraparound_eq, mem_walk]
  simp

/-- The chains at bucket `j`. -/
theorem mem_here (bs : List (Bucket κ)) (j : Nat) (k : κ) (d : Nat) :
    (k, d) ∈ at' bs (getWraparound [] bs) j ↔
      (∃ i < bs.length, (k, d + j + (bs.length - i)) ∈ bs.getD i []) ∨ ∃ i ≤ j, (k, d + (j - i)) ∈ bs.getD i [] := by
  rw [mem_at, mem_wrap]

/-- What `buckets_ok` says: distinct keys, chains shorter than the table, and no two chains that end in the same bucket. -/
def Ok (bs : List (Bucket κ)) : Prop :=
  (bucketsAllKeys bs).Nodup ∧ (∀ i k d, (k, d) ∈ bs.getD i [] → d < bs.length) ∧
  ∀ i k d i' k' d', (k, d) ∈ bs.getD i [] → (k', d') ∈ bs.getD i' [] →
    (i + d) % bs.length = (i' + d') % bs.length → k = k'

theorem here_of_short (bs : List (Bucket κ)) (hs : ∀ i k d, (k, d) ∈ bs.getD i [] → d < bs.length) (j : Nat) (k : κ)
    (d : Nat) (hj : j < bs.length) :
    (k, d) ∈ at' bs (getWraparound [] bs) j ↔
      ∃ i e, (k, e) ∈ bs.getD i [] ∧ d ≤ e ∧ (j + bs.length - i) % bs.length + d = e := by
  rw [mem_here]
  constructor
  · rintro (⟨i, hi, h⟩ | ⟨i, hi, h⟩)
    · have := hs _ _ _ h
      refine ⟨i, _, h, by omega, ?_⟩
      rw [Nat.mod_eq_of_lt (by omega)]
      omega
    · refine ⟨i, _, h, by omega, ?_⟩
      have := getD_lt _ _ _ h
      have e : j + bs.length - i = (j - i) + bs.length := by omega
      rw [e, Nat.add_mod_right, Nat.mod_eq_of_lt (by omega)]
      omega
  · rintro ⟨i, e, h, h1, h2⟩
    have hi := getD_lt _ _ _ h
    by_cases hij : i ≤ j
    · right
      have e1 : j + bs.length - i = (j - i) + bs.length := by omega
      rw [e1, Nat.add_mod_right, Nat.mod_eq_of_lt (by omega)] at h2
      refine ⟨i, hij, ?_⟩
      have : d + (j - i) = e := by omega
      rw [this]; exact h
    · left
      rw [Nat.mod_eq_of_lt (by omega)] at h2
      refine ⟨i, hi, ?_⟩
      have : d + j + (bs.length - i) = e := by omega
      rw [this]; exact h

theorem ends_of_here {n i j d e : Nat} (hi : i < n) (hj : j < n) (h : (j + n - i) % n + d = e) :
    (i + e) % n = (j + d) % n := by
  by_cases hij : i ≤ j
  · have e1 : j + n - i = (j - i) + n := by omega
    rw [e1, Nat.add_mod_right, Nat.mod_eq_of_lt (by omega)] at h
    have : i + e = j + d := by omega
    rw [this]
  · rw [Nat.mod_eq_of_lt (by omega)] at h
    have : i + e = j + d + n := by omega
    rw [this, Nat.add_mod_right]

theorem here_zero_of_end {n i d : Nat} (hi : i < n) (hd : d < n) : ((i + d) % n + n - i) % n = d := by
  by_cases h : i + d < n
  · rw [Nat.mod_eq_of_lt h]
    have : i + d + n - i = d + n := by omega
    rw [this, Nat.add_mod_right, Nat.mod_eq_of_lt hd]
  · have e : (i + d) % n = i + d - n := by
      rw [Nat.mod_eq_sub_mod (by omega), Nat.mod_eq_of_lt (by omega)]
    rw [e]
    have : i + d - n + n - i = d := by omega
    rw [this, Nat.mod_eq_of_lt hd]

/-- With short chains, the list of those at bucket `j` without repetition. -/
theorem here_list (bs : List (Bucket κ)) (hs : ∀ i k d, (k, d) ∈ bs.getD i [] → d < bs.length) (j : Nat) (hj : j < bs.length) :
    at' bs (getWraparound [] bs) j =
      ((List.range' (j + 1) (bs.length - (j + 1))).flatMap fun i => adv (bs.length + j - i) (bs.getD i [])) ++
      (List.range (j + 1)).flatMap fun i => adv (j - i) (bs.getD i []) := by
  rw [at_closed, getWraparound_eq, walk_closed]
  simp only [adv_append]
  have h0 : adv j (adv bs.length ([] : List (κ × Nat))) = [] := rfl
  rw [h0, List.nil_append]
  congr 1
  have hA : ∀ l : List Nat, (∀ i ∈ l, i < bs.length) →
      adv j (l.flatMap fun i => adv (bs.length - i) (bs.getD i [])) = l.flatMap fun i => adv (bs.length + j - i) (bs.getD i []) := by
    intro l
    induction l with
    | nil => intro _; rfl
    | cons i l ihl =>
      intro hl
      have hi := hl i (by simp)
      simp only [List.flatMap_cons, adv_append, adv_adv]
      rw [ihl fun i' h' => hl i' (by simp [h'])]
      have : bs.length - i + j = bs.length + j - i := by omega
      rw [this]
  rw [hA _ fun i hi => List.mem_range.1 hi]
  have hr : List.range bs.length = List.range (j + 1) ++ List.range' (j + 1) (bs.length - (j + 1)) := by
    rw [List.range_eq_range', List.range_eq_range']
    have := List.range'_append (s := 0) (m := j + 1) (n := bs.length - (j + 1)) (step := 1)
    simp only [Nat.one_mul, Nat.zero_add] at this
    rw [this]
    congr 1
    omega
  rw [hr, List.flatMap_append]
  have hz : (List.range (j + 1)).flatMap (fun i => adv (bs.length + j - i) (bs.getD i [])) = [] := by
    apply List.flatMap_eq_nil_iff.2
    intro i hi
    apply adv_eq_nil
    rintro ⟨k, d⟩ hp
    have := hs _ _ _ hp
    have := List.mem_range.1 hi
    show d < _
    omega
  rw [hz, List.nil_append]

theorem allKeys_eq (bs : List (Bucket κ)) :
    bucketsAllKeys bs = (List.range bs.length).flatMap fun i => (bs.getD i []).map Prod.fst := by
  induction bs with
  | nil => rfl
  | cons b bs ih =>
    rw [bucketsAllKeys, ih, List.length_cons, List.range_succ_eq_map, List.flatMap_cons, List.flatMap_map]
    simp

theorem flatMap_sublist {β γ : Type} (l : List β) (f g : β → List γ) (h : ∀ x ∈ l, (f x).Sublist (g x)) :
    (l.flatMap f).Sublist (l.flatMap g) := by
  induction l with
  | nil => exact List.Sublist.refl _
  | cons x l ih =>
    simp only [List.flatMap_cons]
    exact (h x (by simp)).append (ih fun y hy => h y (by simp [hy]))

theorem here_keys_nodup (bs : List (Bucket κ)) (hk : (bucketsAllKeys bs).Nodup)
    (hs : ∀ i k d, (k, d) ∈ bs.getD i [] → d < bs.length) (j : Nat) (hj : j < bs.length) :
    ((at' bs (getWraparound [] bs) j).map Prod.fst).Nodup := by
  rw [here_list bs hs j hj, List.map_append, List.map_flatMap, List.map_flatMap]
  have hr : List.range bs.length = List.range (j + 1) ++ List.range' (j + 1) (bs.length - (j + 1)) := by
    rw [List.range_eq_range', List.range_eq_range']
    have := List.range'_append (s := 0) (m := j + 1) (n := bs.length - (j + 1)) (step := 1)
    simp only [Nat.one_mul, Nat.zero_add] at this
    rw [this]
    congr 1
    omega
  rw [allKeys_eq, hr, List.flatMap_append, List.nodup_append_comm] at hk
  exact (((flatMap_sublist _ _ _ fun i _ => map_fst_adv_sublist _ _).append
    (flatMap_sublist _ _ _ fun i _ => map_fst_adv_sublist _ _))).nodup hk

theorem nodup_snd (l : List (κ × Nat)) (h : (l.map Prod.fst).Nodup)
    (hi : ∀ k k' d, (k, d) ∈ l → (k', d) ∈ l → k = k') : (l.map Prod.snd).Nodup := by
  induction l with
  | nil => exact List.nodup_nil
  | cons p l ih =>
    obtain ⟨k, d⟩ := p
    simp only [List.map_cons, List.nodup_cons] at h ⊢
    refine ⟨?_, ih h.2 fun a b e h1 h2 => hi a b e (by simp [h1]) (by simp [h2])⟩
    intro hm
    obtain ⟨⟨k', d'⟩, h1, h2⟩ := List.mem_map.1 hm
    simp only at h2
    subst h2
    have := hi k k' d' (by simp) (by simp [h1])
    subst this
    exact h.1 (List.mem_map.2 ⟨_, h1, rfl⟩)

theorem wrap_short (bs : List (Bucket κ)) (hs : ∀ i k d, (k, d) ∈ bs.getD i [] → d < bs.length) :
    ∀ p ∈ getWraparound [] bs, p.2 + 1 < bs.length := by
  rintro ⟨k, d⟩ hp
  obtain ⟨i, hi, h⟩ := (mem_wrap bs k d).1 hp
  have := hs _ _ _ h
  show d + 1 < _
  omega

theorem wrap_idem (bs : List (Bucket κ)) (hs : ∀ i k d, (k, d) ∈ bs.getD i [] → d < bs.length) :
    getWraparound (getWraparound [] bs) bs = getWraparound [] bs := by
  rw [getWraparound_eq (getWraparound [] bs), walk_closed]
  rw [adv_eq_nil]
  · rw [getWraparound_eq, walk_closed]; rfl
  · intro p hp
    have := wrap_short bs hs p hp
    omega

theorem ok_iff (bs : List (Bucket κ)) : bucketsOk bs ↔ Ok bs := by
  unfold bucketsOk Ok
  refine and_congr_right fun hk => ?_
  rw [okRec_iff]
  constructor
  · rintro ⟨h, -, -⟩
    have hs : ∀ i k d, (k, d) ∈ bs.getD i [] → d < bs.length := by
      intro i k d hm
      have hi := getD_lt _ _ _ hm
      have := (h i hi).2 (k, d) ((mem_here bs i k d).2 (Or.inr ⟨i, le_refl _, by simpa using hm⟩))
      simpa using this
    refine ⟨hs, ?_⟩
    intro i k d i' k' d' h1 h2 he
    have hi := getD_lt _ _ _ h1
    have hi' := getD_lt _ _ _ h2
    have hj : (i + d) % bs.length < bs.length := Nat.mod_lt _ (by omega)
    refine snd_inj _ (h _ hj).1 k k' 0 ?_ ?_
    · exact (here_of_short bs hs _ k 0 hj).2 ⟨i, d, h1, by omega, by rw [here_zero_of_end hi (hs _ _ _ h1)]; omega⟩
    · refine (here_of_short bs hs _ k' 0 hj).2 ⟨i', d', h2, by omega, ?_⟩
      rw [he, here_zero_of_end hi' (hs _ _ _ h2)]; omega
  · rintro ⟨hs, hend⟩
    have hA : ∀ j < bs.length, ((at' bs (getWraparound [] bs) j).map Prod.snd).Nodup := by
      intro j hj
      apply nodup_snd _ (here_keys_nodup bs hk hs j hj)
      intro k k' d h1 h2
      obtain ⟨i, e, h3, _, h4⟩ := (here_of_short bs hs j k d hj).1 h1
      obtain ⟨i', e', h3', _, h4'⟩ := (here_of_short bs hs j k' d hj).1 h2
      exact hend _ _ _ _ _ _ h3 h3'
        ((ends_of_here (getD_lt _ _ _ h3) hj h4).trans (ends_of_here (getD_lt _ _ _ h3') hj h4').symm)
    refine ⟨fun j hj => ⟨hA j hj, ?_⟩, ?_, ?_⟩
    · rintro ⟨k, d⟩ hp
      obtain ⟨i, e, h3, h5, _⟩ := (here_of_short bs hs j k d hj).1 hp
      have := hs _ _ _ h3
      show (d : Int) < _
      omega
    · rw [← getWraparound_eq, wrap_idem bs hs]
      rcases Nat.eq_zero_or_pos bs.length with h0 | h0
      · have : bs = [] := List.length_eq_zero_iff.1 h0
        subst this
        exact List.nodup_nil
      · have := hA 0 h0
        rw [at'] at this
        simp only [walk, List.map_append] at this
        exact this.of_append_left
    · rw [← getWraparound_eq, wrap_idem bs hs]
      intro p hp
      have := wrap_short bs hs p hp
      omega

theorem currentKey_iff' (l : List (κ × Nat)) (hl : ∀ k k', (k, 0) ∈ l → (k', 0) ∈ l → k = k') (k : κ) :
    getCurrentKey l = some k ↔ (k, 0) ∈ l := by
  constructor
  · exact currentKey_some l k
  · intro h
    cases hc : getCurrentKey l with
    | none => exact absurd h (currentKey_none l hc k)
    | some k' => rw [hl k' k (currentKey_some l k' hc) h]

theorem keys_get (bs : List (Bucket κ)) (j : Nat) (hj : j < bs.length) :
    (bucketsGetKeys bs)[j]? = some (getCurrentKey (at' bs (getWraparound [] bs) j)) := keysRec_get _ _ _ hj

theorem here_snd_nodup (bs : List (Bucket κ)) (h : Ok bs) (j : Nat) (hj : j < bs.length) :
    ((at' bs (getWraparound [] bs) j).map Prod.snd).Nodup :=
  (((okRec_iff _ _ _).1 ((ok_iff bs).2 h).2).1 j hj).1

theorem here_zero_iff (bs : List (Bucket κ)) (hs : ∀ i k d, (k, d) ∈ bs.getD i [] → d < bs.length) (j : Nat)
    (hj : j < bs.length) (k : κ) :
    (k, 0) ∈ at' bs (getWraparound [] bs) j ↔ ∃ i d, (k, d) ∈ bs.getD i [] ∧ (i + d) % bs.length = j := by
  rw [here_of_short bs hs j k 0 hj]
  constructor
  · rintro ⟨i, e, h1, _, h2⟩
    refine ⟨i, e, h1, ?_⟩
    rw [ends_of_here (getD_lt _ _ _ h1) hj h2]
    simpa using Nat.mod_eq_of_lt hj
  · rintro ⟨i, d, h1, rfl⟩
    exact ⟨i, d, h1, by omega, by rw [here_zero_of_end (getD_lt _ _ _ h1) (hs _ _ _ h1)]; omega⟩

/-- Which key is in bucket `j`, if chains are short and no two end in the same bucket: the one whose chain ends there. -/
theorem keys_iff' (bs : List (Bucket κ)) (hs : ∀ i k d, (k, d) ∈ bs.getD i [] → d < bs.length)
    (he : ∀ i k d i' k' d', (k, d) ∈ bs.getD i [] → (k', d') ∈ bs.getD i' [] →
      (i + d) % bs.length = (i' + d') % bs.length → k = k') (j : Nat) (hj : j < bs.length) (k : κ) :
    (bucketsGetKeys bs)[j]? = some (some k) ↔ ∃ i d, (k, d) ∈ bs.getD i [] ∧ (i + d) % bs.length = j := by
  rw [keys_get bs j hj, Option.some.injEq, ← here_zero_iff bs hs j hj]
  apply currentKey_iff'
  intro k1 k2 h1 h2
  obtain ⟨i1, d1, h3, h4⟩ := (here_zero_iff bs hs j hj k1).1 h1
  obtain ⟨i2, d2, h5, h6⟩ := (here_zero_iff bs hs j hj k2).1 h2
  exact he _ _ _ _ _ _ h3 h5 (h4.trans h6.symm)

theorem keys_iff (bs : List (Bucket κ)) (h : Ok bs) (j : Nat) (hj : j < bs.length) (k : κ) :
    (bucketsGetKeys bs)[j]? = some (some k) ↔ ∃ i d, (k, d) ∈ bs.getD i [] ∧ (i + d) % bs.length = j :=
  keys_iff' bs h.2.1 h.2.2 j hj k

/-- Two tables with the same keys at a bucket, as far as `keys_iff'` can tell, agree there. -/
theorem keys_ext (bs : List (Bucket κ)) (j : Nat) (hj : j < bs.length) (o : Option κ)
    (h : ∀ k, (bucketsGetKeys bs)[j]? = some (some k) ↔ o = some k) : (bucketsGetKeys bs)[j]? = some o := by
  have hg := keys_get bs j hj
  cases hc : getCurrentKey (at' bs (getWraparound [] bs) j) with
  | none =>
    cases o with
    | none => rw [hg, hc]
    | some k =>
      have := (h k).2 rfl
      rw [hg, hc] at this
      cases this
  | some k =>
    rw [hc] at hg
    rw [hg, (h k).1 hg]

theorem keys_none_iff (bs : List (Bucket κ)) (h : Ok bs) (j : Nat) (hj : j < bs.length) :
    (bucketsGetKeys bs)[j]? = some none ↔ ∀ k i d, (k, d) ∈ bs.getD i [] → (i + d) % bs.length ≠ j := by
  constructor
  · intro hn k i d hm he
    have := (keys_iff bs h j hj k).2 ⟨i, d, hm, he⟩
    rw [hn] at this
    cases this
  · intro hn
    apply keys_ext bs j hj
    intro k
    rw [keys_iff bs h j hj k]
    constructor
    · rintro ⟨i, d, h1, h2⟩; exact absurd h2 (hn k i d h1)
    · intro h'; cases h'

theorem mem_keys_iff (bs : List (Bucket κ)) (h : Ok bs) (k : κ) :
    some k ∈ bucketsGetKeys bs ↔ ∃ i d, (k, d) ∈ bs.getD i [] := by
  constructor
  · intro hm
    obtain ⟨j, hj, he⟩ := List.getElem_of_mem hm
    have hj' : j < bs.length := by rw [bucketsGetKeys, keysRec_length] at hj; exact hj
    obtain ⟨i, d, h1, _⟩ := (keys_iff bs h j hj' k).1 (by rw [List.getElem?_eq_getElem hj, he])
    exact ⟨i, d, h1⟩
  · rintro ⟨i, d, hm⟩
    have hi := getD_lt _ _ _ hm
    exact List.mem_of_getElem? ((keys_iff bs h _ (Nat.mod_lt _ (by omega)) k).2 ⟨i, d, hm, rfl⟩)

/-! ### Counters -/

/-- How often a chain of length `d` from bucket `i` is counted at bucket `j` of `n`. -/
def weight (n j i d : Nat) : Nat := (if n + j < d + i then 1 else 0) + (if i ≤ j ∧ j < d + i then 1 else 0)

theorem chns_get (bs : List (Bucket κ)) (j : Nat) (hj : j < bs.length) :
    (bucketsGetChns bs)[j]? =
      some (Nat.cast (R := Int)
        (((List.range bs.length).map fun i => ((bs.getD i []).map fun p => weight bs.length j i p.2).sum).sum)) := by
  have hcount : ∀ (l : List (κ × Nat)) (q : κ × Nat → Bool),
      l.countP q = (l.map fun p => if q p then 1 else 0).sum := by
    intro l q
    induction l with
    | nil => rfl
    | cons p l ih => rw [List.countP_cons, List.map_cons, List.sum_cons, ih]; omega
  have hsum : ∀ (l : List Nat) (f g : Nat → Nat), (l.map fun i => f i + g i).sum = (l.map f).sum + (l.map g).sum := by
    intro l f g
    induction l with
    | nil => rfl
    | cons a l ih => simp only [List.map_cons, List.sum_cons, ih]; omega
  have hsum' : ∀ (l : List (κ × Nat)) (f g : κ × Nat → Nat),
      (l.map fun i => f i + g i).sum = (l.map f).sum + (l.map g).sum := by
    intro l f g
    induction l with
    | nil => rfl
    | cons a l ih => simp only [List.map_cons, List.sum_cons, ih]; omega
  rw [bucketsGetChns, chnsRec_get _ _ _ hj]
  congr 2
  rw [advanceAcc_eq, at_closed, getWraparound_eq, walk_closed]
  have h0 : adv bs.length ([] : List (κ × Nat)) = [] := rfl
  rw [h0, List.nil_append, adv_append]
  have hflat : ∀ (t : Nat) (l : List Nat) (f : Nat → List (κ × Nat)), adv t (l.flatMap f) = l.flatMap fun i => adv t (f i) := by
    intro t l f
    induction l with
    | nil => rfl
    | cons a l ih => simp only [List.flatMap_cons, adv_append, ih]
  rw [hflat, hflat, hflat]
  simp only [adv_adv, List.length_append, List.length_flatMap, length_adv]
  have hw : ∀ i, ((bs.getD i []).map fun p => weight bs.length j i p.2).sum =
      ((bs.getD i []).map fun p => if bs.length + j < p.2 + i then 1 else 0).sum +
      ((bs.getD i []).map fun p => if i ≤ j ∧ j < p.2 + i then 1 else 0).sum := by
    intro i
    rw [← hsum']
    rfl
  simp only [hw]
  rw [hsum]
  congr 1
  · congr 1
    apply List.map_congr_left
    intro i hi
    have hi := List.mem_range.1 hi
    rw [hcount]
    congr 1
    apply List.map_congr_left
    intro p _
    by_cases h : bs.length + j < p.2 + i
    · have : bs.length - i + j + 1 ≤ p.2 := by omega
      rw [if_pos h, if_pos (by simpa using this)]
    · have : ¬ bs.length - i + j + 1 ≤ p.2 := by omega
      rw [if_neg h, if_neg (by simpa using this)]
  · have hr : List.range bs.length = List.range (j + 1) ++ List.range' (j + 1) (bs.length - (j + 1)) := by
      rw [List.range_eq_range', List.range_eq_range']
      have := List.range'_append (s := 0) (m := j + 1) (n := bs.length - (j + 1)) (step := 1)
      simp only [Nat.one_mul, Nat.zero_add] at this
      rw [this]
      congr 1
      omega
    rw [hr, List.map_append, List.sum_append]
    have hz : ((List.range' (j + 1) (bs.length - (j + 1))).map fun i =>
        ((bs.getD i []).map fun p => if i ≤ j ∧ j < p.2 + i then 1 else 0).sum).sum = 0 := by
      have hz0 : ∀ l : List Nat, (∀ x ∈ l, x = 0) → l.sum = 0 := by
        intro l
        induction l with
        | nil => intro _; rfl
        | cons a l ih =>
          intro h
          rw [List.sum_cons, h a (by simp), ih fun x hx => h x (by simp [hx])]
      apply hz0
      intro x hx
      obtain ⟨i, hi, rfl⟩ := List.mem_map.1 hx
      have hi := List.mem_range'_1.1 hi
      apply hz0
      intro y hy
      obtain ⟨p, _, rfl⟩ := List.mem_map.1 hy
      rw [if_neg (by omega)]
    rw [hz, Nat.add_zero]
    congr 1
    apply List.map_congr_left
    intro i hi
    have hi := List.mem_range.1 hi
    rw [hcount]
    congr 1
    apply List.map_congr_left
    intro p _
    by_cases h : j < p.2 + i
    · have : j - i + 1 ≤ p.2 := by omega
      have h' : i ≤ j ∧ j < p.2 + i := ⟨by omega, h⟩
      simp [h', this]
    · have : ¬ j - i + 1 ≤ p.2 := by omega
      have h' : ¬ (i ≤ j ∧ j < p.2 + i) := fun hh => h hh.2
      simp [h', this]

/-! ### Partial chains -/

theorem addRec_length (c : List Int) (s l : Int) : (addPartialChainRec c s l).length = c.length := by
  induction c generalizing s l with
  | nil => rfl
  | cons h t ih =>
    simp only [addPartialChainRec]
    split
    · split
      · rfl
      · simp [ih]
    · simp [ih]

theorem addRec_get (c : List Int) (s l : Nat) (i : Nat) :
    (addPartialChainRec c (s : Int) (l : Int))[i]? = (c[i]?).map fun x => x + if s ≤ i ∧ i < s + l then 1 else 0 := by
  induction c generalizing s l i with
  | nil => simp [addPartialChainRec]
  | cons h t ih =>
    cases s with
    | zero =>
      cases l with
      | zero =>
        have e : addPartialChainRec (h :: t) ((0 : Nat) : Int) ((0 : Nat) : Int) = h :: t := by simp [addPartialChainRec]
        rw [e]
        simp
      | succ l =>
        have hl : ((l + 1 : Nat) : Int) - 1 = (l : Int) := by omega
        have hl0 : ((l + 1 : Nat) : Int) ≠ 0 := by omega
        have e : addPartialChainRec (h :: t) ((0 : Nat) : Int) ((l + 1 : Nat) : Int) =
            (h + 1) :: addPartialChainRec t ((0 : Nat) : Int) (l : Int) := by
          simp only [addPartialChainRec, hl0, if_false, hl]
          simp
        rw [e]
        cases i with
        | zero => simp
        | succ i =>
          rw [List.getElem?_cons_succ, List.getElem?_cons_succ, ih]
          congr 1
          funext x
          by_cases hh : i < 0 + l
          · have h1 : (0 ≤ i ∧ i < 0 + l) := ⟨by omega, hh⟩
            have h2 : (0 ≤ i + 1 ∧ i + 1 < 0 + (l + 1)) := ⟨by omega, by omega⟩
            rw [if_pos h1, if_pos h2]
          · rw [if_neg (by omega), if_neg (by omega)]
    | succ s =>
      have hl : ((s + 1 : Nat) : Int) - 1 = (s : Int) := by omega
      have hl0 : ((s + 1 : Nat) : Int) ≠ 0 := by omega
      simp only [addPartialChainRec, hl0, if_false, hl]
      cases i with
      | zero => simp
      | succ i =>
        rw [List.getElem?_cons_succ, List.getElem?_cons_succ, ih]
        congr 1
        funext x
        by_cases hh : s ≤ i ∧ i < s + l
        · rw [if_pos hh, if_pos (by omega)]
        · rw [if_neg hh, if_neg (by omega)]

theorem add_length (c : List Int) (s l : Int) : (addPartialChain s l c).length = c.length := by
  unfold addPartialChain
  split <;> simp [addRec_length]

theorem add_get (c : List Int) (s l : Nat) (i : Nat) :
    (addPartialChain (s : Int) (l : Int) c)[i]? = (c[i]?).map fun x : Int => x + (weight c.length i s l : Int) := by
  unfold addPartialChain
  by_cases h : (c.length : Int) < s + l
  · rw [if_pos h]
    have e : (l : Int) + s - c.length = ((l + s - c.length : Nat) : Int) := by omega
    have e0 : (0 : Int) = ((0 : Nat) : Int) := rfl
    rw [e, e0, addRec_get, addRec_get, Option.map_map]
    congr 1
    funext x
    simp only [Function.comp, weight]
    by_cases h1 : s ≤ i ∧ i < l + s
    · by_cases h2 : c.length + i < l + s
      · rw [if_pos (by omega), if_pos (by omega), if_pos h1, if_pos h2]; push_cast; ring
      · rw [if_pos (by omega), if_neg (by omega), if_pos h1, if_neg h2]; push_cast; ring
    · by_cases h2 : c.length + i < l + s
      · rw [if_neg (by omega), if_pos (by omega), if_neg h1, if_pos h2]; push_cast; ring
      · rw [if_neg (by omega), if_neg (by omega), if_neg h1, if_neg h2]; push_cast; ring
  · rw [if_neg h, addRec_get]
    by_cases hi : i < c.length
    · congr 1
      funext x
      simp only [weight]
      by_cases h1 : s ≤ i ∧ i < l + s
      · rw [if_pos (by omega), if_pos h1, if_neg (by omega)]; push_cast; ring
      · rw [if_neg (by omega), if_neg h1, if_neg (by omega)]; push_cast; ring
    · rw [List.getElem?_eq_none (by omega)]; rfl

/-! ### Putting and removing a key -/

theorem put_length (k : κ) (dist start : Int) (bs : List (Bucket κ)) :
    (bucketsPutKey k dist start bs).length = bs.length := by
  induction bs generalizing start with
  | nil => rfl
  | cons b bs ih =>
    simp only [bucketsPutKey]
    split <;> simp [ih]

theorem put_getD (k : κ) (d s : Nat) (bs : List (Bucket κ)) (hs : s < bs.length) (i : Nat) :
    (bucketsPutKey k (d : Int) (s : Int) bs).getD i [] = if i = s then (k, d) :: bs.getD i [] else bs.getD i [] := by
  induction bs generalizing s i with
  | nil => simp at hs
  | cons b bs ih =>
    cases s with
    | zero =>
      have e : bucketsPutKey k (d : Int) ((0 : Nat) : Int) (b :: bs) = ((k, d) :: b) :: bs := by
        simp [bucketsPutKey, bucketPutKey]
      rw [e]
      cases i with
      | zero => simp
      | succ i => simp
    | succ s =>
      have hl : ((s + 1 : Nat) : Int) - 1 = (s : Int) := by omega
      have hl0 : ((s + 1 : Nat) : Int) ≠ 0 := by omega
      simp only [bucketsPutKey, hl0, if_false, hl]
      cases i with
      | zero => simp
      | succ i =>
        rw [List.getD_cons_succ, List.getD_cons_succ, ih s (by simpa using hs)]
        by_cases h : i = s
        · simp [h]
        · simp [h]

theorem put_allKeys_perm (k : κ) (dist : Int) (s : Nat) (bs : List (Bucket κ)) (hs : s < bs.length) :
    (bucketsAllKeys (bucketsPutKey k dist (s : Int) bs)).Perm (k :: bucketsAllKeys bs) := by
  induction bs generalizing s with
  | nil => simp at hs
  | cons b bs ih =>
    cases s with
    | zero =>
      have e : bucketsPutKey k dist ((0 : Nat) : Int) (b :: bs) = ((k, dist.toNat) :: b) :: bs := by
        simp [bucketsPutKey, bucketPutKey]
      rw [e]
      simp [bucketsAllKeys]
    | succ s =>
      have hl : ((s + 1 : Nat) : Int) - 1 = (s : Int) := by omega
      have hl0 : ((s + 1 : Nat) : Int) ≠ 0 := by omega
      simp only [bucketsPutKey, hl0, if_false, hl, bucketsAllKeys]
      exact ((ih s (by simpa using hs)).append_left _).trans List.perm_middle

variable [DecidableEq κ]

theorem rem_length (k : κ) (bs : List (Bucket κ)) : (bucketsRemoveKey k bs).length = bs.length := by
  induction bs with
  | nil => rfl
  | cons b bs ih => simp [bucketsRemoveKey, ih]

theorem rem_getD (k : κ) (bs : List (Bucket κ)) (i : Nat) :
    (bucketsRemoveKey k bs).getD i [] = (bs.getD i []).filter (notThisKeyPair k) := by
  induction bs generalizing i with
  | nil => simp [bucketsRemoveKey]
  | cons b bs ih =>
    cases i with
    | zero => simp [bucketsRemoveKey]
    | succ i => simpa [bucketsRemoveKey] using ih i

theorem mem_rem (k : κ) (bs : List (Bucket κ)) (i : Nat) (k' : κ) (d : Nat) :
    (k', d) ∈ (bucketsRemoveKey k bs).getD i [] ↔ (k', d) ∈ bs.getD i [] ∧ k' ≠ k := by
  rw [rem_getD, List.mem_filter]
  simp [notThisKeyPair]

theorem rem_allKeys_sublist (k : κ) (bs : List (Bucket κ)) :
    (bucketsAllKeys (bucketsRemoveKey k bs)).Sublist (bucketsAllKeys bs) := by
  induction bs with
  | nil => exact List.Sublist.refl _
  | cons b bs ih =>
    simp only [bucketsRemoveKey, bucketsAllKeys]
    exact (List.filter_sublist.map _).append ih

theorem chainWithKey_eq (l : List (κ × Nat)) (hl : (l.map Prod.fst).Nodup) (k : κ) (d : Nat) (h : (k, d) ∈ l) :
    chainWithKey k l = d := by
  induction l with
  | nil => cases h
  | cons p l ih =>
    obtain ⟨k', d'⟩ := p
    simp only [List.map_cons, List.nodup_cons] at hl
    simp only [chainWithKey]
    rcases List.mem_cons.1 h with h' | h'
    · cases h'; simp
    · rw [if_neg]
      · exact ih hl.2 h'
      · rintro rfl
        exact hl.1 (List.mem_map.2 ⟨_, h', rfl⟩)

theorem chainWithKey_mem (l : List (κ × Nat)) (k : κ) : chainWithKey k l = 0 ∨ (k, chainWithKey k l) ∈ l := by
  induction l with
  | nil => exact Or.inl rfl
  | cons p l ih =>
    obtain ⟨k', d'⟩ := p
    simp only [chainWithKey]
    split
    · rename_i h; right; simp [h]
    · rcases ih with h | h
      · exact Or.inl h
      · exact Or.inr (List.mem_cons_of_mem _ h)

omit [DecidableEq κ] in
theorem bucket_nodup (bs : List (Bucket κ)) (h : (bucketsAllKeys bs).Nodup) (i : Nat) :
    ((bs.getD i []).map Prod.fst).Nodup := by
  induction bs generalizing i with
  | nil => simp
  | cons b bs ih =>
    simp only [bucketsAllKeys, List.nodup_append] at h
    cases i with
    | zero => simpa using h.1
    | succ i => simpa using ih h.2.1 i

omit [DecidableEq κ] in
theorem mem_put (bs : List (Bucket κ)) (k : κ) (s d : Nat) (hs : s < bs.length) (i : Nat) (k' : κ) (d' : Nat) :
    (k', d') ∈ (bucketsPutKey k (d : Int) (s : Int) bs).getD i [] ↔
      (i = s ∧ k' = k ∧ d' = d) ∨ (k', d') ∈ bs.getD i [] := by
  rw [put_getD k d s bs hs i]
  split
  · rename_i hi
    simp [hi]
  · rename_i hi
    simp [hi]

omit [DecidableEq κ] in
theorem put_ok (bs : List (Bucket κ)) (h : Ok bs) (k : κ) (s d : Nat) (hs : s < bs.length) (hd : d < bs.length)
    (hk : k ∉ bucketsAllKeys bs)
    (hfree : ∀ k' i d', (k', d') ∈ bs.getD i [] → (i + d') % bs.length ≠ (s + d) % bs.length) :
    Ok (bucketsPutKey k (d : Int) (s : Int) bs) := by
  have hm : ∀ i k' d', (k', d') ∈ (bucketsPutKey k (d : Int) (s : Int) bs).getD i [] →
      (i = s ∧ k' = k ∧ d' = d) ∨ (k', d') ∈ bs.getD i [] := by
    intro i k' d' hm
    rw [put_getD k d s bs hs i] at hm
    split at hm
    · rename_i hi
      rcases List.mem_cons.1 hm with h' | h'
      · cases h'; exact Or.inl ⟨hi, rfl, rfl⟩
      · exact Or.inr h'
    · exact Or.inr hm
  refine ⟨?_, ?_, ?_⟩
  · exact (put_allKeys_perm k (d : Int) s bs hs).symm.nodup (List.nodup_cons.2 ⟨hk, h.1⟩)
  · intro i k' d' h'
    rw [put_length]
    rcases hm i k' d' h' with ⟨_, _, rfl⟩ | h'
    · exact hd
    · exact h.2.1 _ _ _ h'
  · intro i1 k1 d1 i2 k2 d2 h1 h2 he
    rw [put_length] at he
    rcases hm _ _ _ h1 with ⟨rfl, rfl, rfl⟩ | h1'
    · rcases hm _ _ _ h2 with ⟨_, rfl, _⟩ | h2'
      · rfl
      · exact absurd he.symm (hfree _ _ _ h2')
    · rcases hm _ _ _ h2 with ⟨rfl, rfl, rfl⟩ | h2'
      · exact absurd he (hfree _ _ _ h1')
      · exact h.2.2 _ _ _ _ _ _ h1' h2' he

theorem rem_ok (bs : List (Bucket κ)) (h : Ok bs) (k : κ) : Ok (bucketsRemoveKey k bs) := by
  refine ⟨(rem_allKeys_sublist k bs).nodup h.1, ?_, ?_⟩
  · intro i k' d' h'
    rw [rem_length]
    exact h.2.1 _ _ _ ((mem_rem k bs i k' d').1 h').1
  · intro i1 k1 d1 i2 k2 d2 h1 h2 he
    rw [rem_length] at he
    exact h.2.2 _ _ _ _ _ _ ((mem_rem _ _ _ _ _).1 h1).1 ((mem_rem _ _ _ _ _).1 h2).1 he

omit [DecidableEq κ] in
theorem sum_range_one (n s c : Nat) (hs : s < n) (f g : Nat → Nat) (h : ∀ i ≠ s, f i = g i) (h' : f s = g s + c) :
    ((List.range n).map f).sum = ((List.range n).map g).sum + c := by
  induction n with
  | zero => omega
  | succ n ih =>
    rw [List.range_succ, List.map_append, List.map_append, List.sum_append, List.sum_append]
    simp only [List.map_cons, List.map_nil, List.sum_cons, List.sum_nil]
    by_cases hsn : s = n
    · subst hsn
      have : (List.range s).map f = (List.range s).map g :=
        List.map_congr_left fun i hi => h i (by have := List.mem_range.1 hi; omega)
      rw [this, h']
      omega
    · rw [ih (by omega), h n (by omega)]
      omega

omit [DecidableEq κ] in
theorem put_chns (bs : List (Bucket κ)) (k : κ) (s d : Nat) (hs : s < bs.length) :
    bucketsGetChns (bucketsPutKey k (d : Int) (s : Int) bs) = addPartialChain (s : Int) (d : Int) (bucketsGetChns bs) := by
  apply List.ext_getElem?
  intro j
  have hlen : (bucketsGetChns bs).length = bs.length := chnsRec_length _ _
  rw [add_get, hlen]
  by_cases hj : j < bs.length
  · rw [chns_get bs j hj, chns_get _ j (by rw [put_length]; exact hj), put_length]
    simp only [Option.map_some, Option.some.injEq]
    rw [sum_range_one bs.length s (weight bs.length j s d) hs _
      (fun i => ((bs.getD i []).map fun p => weight bs.length j i p.2).sum)]
    · push_cast; rfl
    · intro i hi
      rw [put_getD k d s bs hs i, if_neg hi]
    · rw [put_getD k d s bs hs s, if_pos rfl, List.map_cons, List.sum_cons]
      exact Nat.add_comm _ _
  · rw [List.getElem?_eq_none (by rw [bucketsGetChns, chnsRec_length, put_length]; omega),
      List.getElem?_eq_none (by rw [hlen]; omega)]
    rfl

theorem sum_filter_key (l : List (κ × Nat)) (hl : (l.map Prod.fst).Nodup) (k : κ) (d : Nat) (h : (k, d) ∈ l)
    (w : κ × Nat → Nat) : (l.map w).sum = ((l.filter (notThisKeyPair k)).map w).sum + w (k, d) := by
  induction l with
  | nil => cases h
  | cons p l ih =>
    obtain ⟨k', d'⟩ := p
    simp only [List.map_cons, List.nodup_cons] at hl
    rcases List.mem_cons.1 h with h' | h'
    · cases h'
      have hf : l.filter (notThisKeyPair k) = l := by
        apply List.filter_eq_self.2
        rintro ⟨k2, d2⟩ hm
        simp only [notThisKeyPair, decide_eq_true_eq]
        rintro rfl
        exact hl.1 (List.mem_map.2 ⟨_, hm, rfl⟩)
      rw [List.filter_cons_of_neg (by simp [notThisKeyPair]), hf]
      simp only [List.map_cons, List.sum_cons]
      omega
    · have hne : k' ≠ k := by
        rintro rfl
        exact hl.1 (List.mem_map.2 ⟨_, h', rfl⟩)
      rw [List.filter_cons_of_pos (by simpa [notThisKeyPair] using hne)]
      simp only [List.map_cons, List.sum_cons, ih hl.2 h']
      omega

theorem rem_chns (bs : List (Bucket κ)) (hk : (bucketsAllKeys bs).Nodup) (k : κ) (s d : Nat) (hm : (k, d) ∈ bs.getD s []) :
    bucketsGetChns bs = addPartialChain (s : Int) (d : Int) (bucketsGetChns (bucketsRemoveKey k bs)) := by
  have hs := getD_lt _ _ _ hm
  apply List.ext_getElem?
  intro j
  have hlen : (bucketsGetChns (bucketsRemoveKey k bs)).length = bs.length := by
    rw [bucketsGetChns, chnsRec_length, rem_length]
  rw [add_get, hlen]
  by_cases hj : j < bs.length
  · rw [chns_get bs j hj, chns_get _ j (by rw [rem_length]; exact hj), rem_length]
    simp only [Option.map_some, Option.some.injEq]
    rw [sum_range_one bs.length s (weight bs.length j s d) hs _
      (fun i => (((bucketsRemoveKey k bs).getD i []).map fun p => weight bs.length j i p.2).sum)]
    · push_cast; rfl
    · intro i hi
      rw [rem_getD]
      have : (bs.getD i []).filter (notThisKeyPair k) = bs.getD i [] := by
        apply List.filter_eq_self.2
        rintro ⟨k2, d2⟩ hm2
        simp only [notThisKeyPair, decide_eq_true_eq]
        rintro rfl
        exact hi (chain_unique bs hk _ _ _ _ _ hm2 hm).1
      rw [this]
    · rw [rem_getD]
      exact sum_filter_key _ (bucket_nodup bs hk s) k d hm _
  · rw [List.getElem?_eq_none (by rw [bucketsGetChns, chnsRec_length]; omega),
      List.getElem?_eq_none (by rw [hlen]; omega)]
    rfl

theorem rem_keys (bs : List (Bucket κ)) (h : Ok bs) (k : κ) (s d : Nat) (hm : (k, d) ∈ bs.getD s []) :
    bucketsGetKeys (bucketsRemoveKey k bs) = (bucketsGetKeys bs).set ((s + d) % bs.length) none := by
  have hs := getD_lt _ _ _ hm
  have ok' := rem_ok bs h k
  have hlen : (bucketsGetKeys bs).length = bs.length := keysRec_length _ _
  apply List.ext_getElem?
  intro j
  rw [List.getElem?_set, hlen]
  by_cases hj : j < bs.length
  · by_cases hjs : (s + d) % bs.length = j
    · rw [if_pos hjs, if_pos (by omega)]
      apply (keys_none_iff _ ok' j (by rw [rem_length]; exact hj)).2
      intro k2 i2 d2 h2 he
      obtain ⟨h3, h4⟩ := (mem_rem _ _ _ _ _).1 h2
      rw [rem_length, ← hjs] at he
      exact h4 (h.2.2 _ _ _ _ _ _ h3 hm he)
    · rw [if_neg hjs]
      obtain ⟨o, ho⟩ : ∃ o, (bucketsGetKeys bs)[j]? = some o := ⟨_, List.getElem?_eq_getElem (by omega)⟩
      rw [ho]
      apply keys_ext _ j (by rw [rem_length]; exact hj)
      intro k2
      rw [keys_iff _ ok' j (by rw [rem_length]; exact hj), rem_length]
      have hk2 := keys_iff bs h j hj k2
      rw [ho, Option.some.injEq] at hk2
      rw [hk2]
      constructor
      · rintro ⟨i, e, h1, h2⟩
        exact ⟨i, e, ((mem_rem _ _ _ _ _).1 h1).1, h2⟩
      · rintro ⟨i, e, h1, h2⟩
        refine ⟨i, e, (mem_rem _ _ _ _ _).2 ⟨h1, ?_⟩, h2⟩
        rintro rfl
        obtain ⟨rfl, rfl⟩ := chain_unique bs h.1 _ _ _ _ _ h1 hm
        exact hjs h2
  · rw [if_neg (by have := Nat.mod_lt (s + d) (show 0 < bs.length by omega); omega)]
    rw [List.getElem?_eq_none (by rw [bucketsGetKeys, keysRec_length, rem_length]; omega),
      List.getElem?_eq_none (by omega)]

omit [DecidableEq κ] in
theorem put_keys (bs : List (Bucket κ)) (h : Ok bs) (k : κ) (s d : Nat) (hs : s < bs.length) (hd : d < bs.length)
    (hfree : ∀ k' i d', (k', d') ∈ bs.getD i [] → (i + d') % bs.length ≠ (s + d) % bs.length) :
    bucketsGetKeys (bucketsPutKey k (d : Int) (s : Int) bs) = (bucketsGetKeys bs).set ((s + d) % bs.length) (some k) := by
  have hlen : (bucketsGetKeys bs).length = bs.length := keysRec_length _ _
  have hsh : ∀ i k' d', (k', d') ∈ (bucketsPutKey k (d : Int) (s : Int) bs).getD i [] →
      d' < (bucketsPutKey k (d : Int) (s : Int) bs).length := by
    intro i k' d' h'
    rw [put_length]
    rcases (mem_put bs k s d hs i k' d').1 h' with ⟨_, _, rfl⟩ | h'
    · exact hd
    · exact h.2.1 _ _ _ h'
  have hen : ∀ i1 k1 d1 i2 k2 d2, (k1, d1) ∈ (bucketsPutKey k (d : Int) (s : Int) bs).getD i1 [] →
      (k2, d2) ∈ (bucketsPutKey k (d : Int) (s : Int) bs).getD i2 [] →
      (i1 + d1) % (bucketsPutKey k (d : Int) (s : Int) bs).length =
        (i2 + d2) % (bucketsPutKey k (d : Int) (s : Int) bs).length → k1 = k2 := by
    intro i1 k1 d1 i2 k2 d2 h1 h2 he
    rw [put_length] at he
    rcases (mem_put bs k s d hs _ _ _).1 h1 with ⟨rfl, rfl, rfl⟩ | h1'
    · rcases (mem_put bs _ _ _ hs _ _ _).1 h2 with ⟨_, rfl, _⟩ | h2'
      · rfl
      · exact absurd he.symm (hfree _ _ _ h2')
    · rcases (mem_put bs k s d hs _ _ _).1 h2 with ⟨rfl, rfl, rfl⟩ | h2'
      · exact absurd he (hfree _ _ _ h1')
      · exact h.2.2 _ _ _ _ _ _ h1' h2' he
  apply List.ext_getElem?
  intro j
  rw [List.getElem?_set, hlen]
  by_cases hj : j < bs.length
  · have hj' : j < (bucketsPutKey k (d : Int) (s : Int) bs).length := by rw [put_length]; exact hj
    by_cases hjs : (s + d) % bs.length = j
    · rw [if_pos hjs, if_pos (by omega)]
      exact (keys_iff' _ hsh hen j hj' k).2 ⟨s, d, (mem_put bs k s d hs _ _ _).2 (Or.inl ⟨rfl, rfl, rfl⟩), by
        rw [put_length]; exact hjs⟩
    · rw [if_neg hjs]
      obtain ⟨o, ho⟩ : ∃ o, (bucketsGetKeys bs)[j]? = some o := ⟨_, List.getElem?_eq_getElem (by omega)⟩
      rw [ho]
      apply keys_ext _ j hj'
      intro k2
      rw [keys_iff' _ hsh hen j hj', put_length]
      have hk2 := keys_iff bs h j hj k2
      rw [ho, Option.some.injEq] at hk2
      rw [hk2]
      constructor
      · rintro ⟨i, e, h1, h2⟩
        rcases (mem_put bs k s d hs _ _ _).1 h1 with ⟨rfl, rfl, rfl⟩ | h1'
        · exact absurd h2 hjs
        · exact ⟨i, e, h1', h2⟩
      · rintro ⟨i, e, h1, h2⟩
        exact ⟨i, e, (mem_put bs k s d hs _ _ _).2 (Or.inr h1), h2⟩
  · rw [if_neg (by have := Nat.mod_lt (s + d) (show 0 < bs.length by omega); omega)]
    rw [List.getElem?_eq_none (by rw [bucketsGetKeys, keysRec_length, put_length]; omega),
      List.getElem?_eq_none (by omega)]

end

end Verif.Buckets
