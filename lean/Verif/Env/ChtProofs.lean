/- Proofs about the consistent hash table. -/
import Verif.Env.Cht
import Verif.Base
import Mathlib.Data.Nat.ModEq
import Mathlib.Data.Nat.Prime.Basic
import Mathlib.Data.Int.GCD
import Mathlib.Data.Nat.GCD.Basic

set_option autoImplicit false

namespace Verif.Cht

/-- The bucket that backend `j` prefers in `i`-th place. -/
def bucket (h j i : Nat) : Nat := (j * 31 % h + (j % (h - 1) + 1) * i) % h

theorem bucket_inj {h j i i' : Nat} (hc : Nat.Coprime h (j % (h - 1) + 1)) (hi : i < h) (hi' : i' < h)
    (he : bucket h j i = bucket h j i') : i = i' := by
  have h1 : (j % (h - 1) + 1) * i ≡ (j % (h - 1) + 1) * i' [MOD h] :=
    Nat.ModEq.add_left_cancel' _ he
  have h2 : i ≡ i' [MOD h] := Nat.ModEq.cancel_left_of_coprime hc h1
  have h3 : i % h = i' % h := h2
  rwa [Nat.mod_eq_of_lt hi, Nat.mod_eq_of_lt hi'] at h3

theorem bucket_surj {h j : Nat} (hc : Nat.Coprime h (j % (h - 1) + 1)) {b : Nat} (hb : b < h) :
    ∃ i < h, bucket h j i = b := by
  have hnd : ((List.range h).map (bucket h j)).Nodup := by
    apply List.Nodup.map_on _ List.nodup_range
    intro x hx y hy hxy
    exact bucket_inj hc (List.mem_range.1 hx) (List.mem_range.1 hy) hxy
  have hsub : ((List.range h).map (bucket h j)) ⊆ List.range h := by
    intro x hx
    obtain ⟨i, _, rfl⟩ := List.mem_map.1 hx
    exact List.mem_range.2 (Nat.mod_lt _ (by omega))
  have hp := (List.subperm_of_subset hnd hsub).perm_of_length_le (by simp)
  have := hp.mem_iff.2 (List.mem_range.2 hb)
  obtain ⟨i, hi, e⟩ := List.mem_map.1 this
  exact ⟨i, List.mem_range.1 hi, e⟩

theorem store_spec {l : List Nat} {i v : Nat} (h : i < l.length) : store l i v = some (l.set i v) := by
  simp [store, h]

theorem index_lt {i j n h cap : Nat} (hi : i < cap) (hj : j < h) (hn : n = h * cap) : i * h + j < n := by
  subst hn
  calc i * h + j < i * h + h := by omega
    _ = (i + 1) * h := by ring
    _ ≤ cap * h := Nat.mul_le_mul_right _ hi
    _ = h * cap := Nat.mul_comm _ _

theorem index_inj {i j i' j' h : Nat} (hj : j < h) (hj' : j' < h) (he : i * h + j = i' * h + j') :
    i = i' ∧ j = j' := by
  have h1 : (i * h + j) / h = i := by
    rw [Nat.mul_comm, Nat.mul_add_div (by omega), Nat.div_eq_of_lt hj]; omega
  have h2 : (i' * h + j') / h = i' := by
    rw [Nat.mul_comm, Nat.mul_add_div (by omega), Nat.div_eq_of_lt hj']; omega
  have : i = i' := by rw [← h1, ← h2, he]
  subst this
  exact ⟨rfl, by omega⟩

theorem permInner_spec {h cap i : Nat} (hh : h < 40000) (hi : i < cap) :
    ∀ k j (perms : List Nat), k + j = h → perms.length = h * cap →
    ∃ perms', permInner h i (loop (i * 31) h) (loop i (h - 1) + 1) k j perms = some perms' ∧
      perms'.length = h * cap ∧
      (∀ j', j ≤ j' → j' < h → perms'[i * h + j']? = some (bucket h i j')) ∧
      (∀ x, (∀ j', j ≤ j' → j' < h → x ≠ i * h + j') → perms'[x]? = perms[x]?) := by
  intro k
  induction k with
  | zero => intro j perms hj hl; exact ⟨perms, rfl, hl, by intro j' h1 h2; omega, by simp⟩
  | succ k ih =>
    intro j perms hj hl
    have hlt : i * h + j < perms.length := index_lt hi (by omega) hl
    rw [permInner, store_spec hlt]
    simp only [Option.bind_eq_bind, Option.bind_some]
    have hb : loop (loop (i * 31) h + (loop i (h - 1) + 1) * j) h % 2 ^ 16 = bucket h i j := by
      simp only [loop, bucket]
      apply Nat.mod_eq_of_lt
      have := Nat.mod_lt (i * 31 % h + (i % (h - 1) + 1) * j) (by omega : 0 < h)
      omega
    rw [hb]
    obtain ⟨perms', h1, h2, h3, h4⟩ := ih (j + 1) (perms.set (i * h + j) (bucket h i j)) (by omega) (by simpa using hl)
    refine ⟨perms', h1, h2, ?_, ?_⟩
    · intro j' hj1 hj2
      by_cases he : j' = j
      · subst he
        rw [h4]
        · simp [hlt]
        · intro j'' h5 h6; omega
      · exact h3 j' (by omega) hj2
    · intro x hx
      rw [h4 x (fun j' h5 h6 => hx j' (by omega) h6), List.getElem?_set_ne]
      exact (hx j (le_refl _) (by omega)).symm

theorem permOuter_spec {h cap : Nat} (hh : h < 40000) :
    ∀ k i (perms : List Nat), k + i = cap → perms.length = h * cap →
    ∃ perms', permOuter h k i perms = some perms' ∧ perms'.length = h * cap ∧
      (∀ i' j', i ≤ i' → i' < cap → j' < h → perms'[i' * h + j']? = some (bucket h i' j')) ∧
      (∀ i' j', i' < i → j' < h → perms'[i' * h + j']? = perms[i' * h + j']?) := by
  intro k
  induction k with
  | zero => intro i perms hi hl; exact ⟨perms, rfl, hl, by intro i' j' h1 h2; omega, by simp⟩
  | succ k ih =>
    intro i perms hi hl
    obtain ⟨p1, e1, l1, a1, b1⟩ := permInner_spec (h := h) (cap := cap) (i := i) hh (by omega) h 0 perms (by omega) hl
    obtain ⟨p2, e2, l2, a2, b2⟩ := ih (i + 1) p1 (by omega) l1
    refine ⟨p2, ?_, l2, ?_, ?_⟩
    · simp only [permOuter, e1, Option.bind_eq_bind, Option.bind_some, e2]
    · intro i' j' h1 h2 h3
      by_cases he : i' = i
      · subst he
        rw [b2 _ _ (by omega) h3, a1 _ (by omega) h3]
      · exact a2 i' j' (by omega) h2 h3
    · intro i' j' h1 h2
      rw [b2 _ _ (by omega) h2, b1]
      intro j'' _ h4 he
      have := (index_inj h2 h4 he).1
      omega

/-- The (place, backend) pairs in the order the fill loops visit them: everything
before place `i`, then backends below `j` at place `i`. -/
def visited (cap i j : Nat) : List (Nat × Nat) :=
  (List.range i).flatMap (fun i' => (List.range cap).map fun j' => (i', j')) ++
    (List.range j).map fun j' => (i, j')

theorem visited_succ (cap i j : Nat) : visited cap i (j + 1) = visited cap i j ++ [(i, j)] := by
  simp [visited, List.range_succ]

theorem visited_next (cap i : Nat) : visited cap (i + 1) 0 = visited cap i cap := by
  simp [visited, List.range_succ]

theorem mem_visited {cap i j : Nat} {x : Nat × Nat} (hj : j ≤ cap) (h : x ∈ visited cap i j) :
    x.2 < cap ∧ (x.1 < i ∨ x.1 = i ∧ x.2 < j) := by
  simp only [visited, List.mem_append, List.mem_flatMap, List.mem_map, List.mem_range] at h
  rcases h with ⟨i', hi', j', hj', rfl⟩ | ⟨j', hj', rfl⟩
  · exact ⟨hj', .inl hi'⟩
  · exact ⟨by simp only; omega, .inr ⟨rfl, hj'⟩⟩

/-- The backends placed in bucket `b` so far, in order. -/
def row (h cap b i j : Nat) : List Nat :=
  ((visited cap i j).filter fun x => decide (bucket h x.2 x.1 = b)).map Prod.snd

theorem row_succ (h cap b i j : Nat) :
    row h cap b i (j + 1) = row h cap b i j ++ (if bucket h j i = b then [j] else []) := by
  simp only [row, visited_succ, List.filter_append, List.map_append]
  congr 1
  split <;> rename_i hh <;> simp [hh]

theorem row_next (h cap b i : Nat) : row h cap b (i + 1) 0 = row h cap b i cap := by
  simp [row, visited_next]

theorem row_sub {h cap b i j : Nat} (hj : j ≤ cap) : ∀ x ∈ row h cap b i j, x < cap := by
  intro x hx
  simp only [row, List.mem_map, List.mem_filter] at hx
  obtain ⟨y, ⟨hy, _⟩, rfl⟩ := hx
  exact (mem_visited hj hy).1

theorem row_fresh {h cap i j : Nat} (hc : ∀ j < cap, Nat.Coprime h (j % (h - 1) + 1)) (hi : i < h)
    (hj : j < cap) : j ∉ row h cap (bucket h j i) i j := by
  intro hx
  simp only [row, List.mem_map, List.mem_filter, decide_eq_true_eq] at hx
  obtain ⟨⟨a, c⟩, ⟨hy, hb⟩, rfl⟩ := hx
  have := (mem_visited (by simp only at hj ⊢; omega) hy).2
  simp only at this hb hj hi
  have ha : a = i := bucket_inj (hc c hj) (by omega) hi hb
  omega

theorem row_nodup {h cap : Nat} (hc : ∀ j < cap, Nat.Coprime h (j % (h - 1) + 1)) (b : Nat) :
    ∀ i j, i < h → j ≤ cap → (row h cap b i j).Nodup := by
  intro i
  induction i with
  | zero =>
    intro j hi
    induction j with
    | zero => intro _; simp [row, visited]
    | succ j ih =>
      intro hj
      rw [row_succ]
      split
      · rename_i hb
        subst hb
        have := row_fresh hc hi (by omega : j < cap)
        rw [List.nodup_append]
        refine ⟨ih (by omega), by simp, ?_⟩
        intro a ha c hcm
        simp at hcm; subst hcm
        rintro rfl; exact this ha
      · simpa using ih (by omega)
  | succ i ih =>
    intro j hi
    induction j with
    | zero => intro _; rw [row_next]; exact ih cap (by omega) (le_refl _)
    | succ j ihj =>
      intro hj
      rw [row_succ]
      split
      · rename_i hb
        subst hb
        have := row_fresh hc hi (by omega : j < cap)
        rw [List.nodup_append]
        refine ⟨ihj (by omega), by simp, ?_⟩
        intro a ha c hcm
        simp at hcm; subst hcm
        rintro rfl; exact this ha
      · simpa using ihj (by omega)

/-- A row never has more than `cap` entries, one fewer before a new one. -/
theorem row_room {h cap i j : Nat} (hc : ∀ j < cap, Nat.Coprime h (j % (h - 1) + 1)) (hi : i < h) (hj : j < cap) :
    (row h cap (bucket h j i) i j).length < cap := by
  have hnd : (j :: row h cap (bucket h j i) i j).Nodup :=
    List.nodup_cons.2 ⟨row_fresh hc hi hj, row_nodup hc _ _ _ hi (by omega)⟩
  have hsub : (j :: row h cap (bucket h j i) i j) ⊆ List.range cap := by
    intro x hx
    rcases List.mem_cons.1 hx with rfl | hx
    · exact List.mem_range.2 hj
    · exact List.mem_range.2 (row_sub (by omega) x hx)
  have := (List.subperm_of_subset hnd hsub).length_le
  simp at this
  omega

/-- What the fill loops maintain. -/
structure FillInv (h cap i j : Nat) (s : List Nat × List Nat) : Prop where
  len1 : s.1.length = h
  len2 : s.2.length = h * cap
  next : ∀ b < h, s.1[b]? = some (row h cap b i j).length
  data : ∀ b < h, ∀ (k v : Nat), (row h cap b i j)[k]? = some v → s.2[cap * b + k]? = some v

theorem row_le_cap {h cap b i j : Nat} (hc : ∀ j < cap, Nat.Coprime h (j % (h - 1) + 1)) (hi : i < h) (hj : j ≤ cap) :
    (row h cap b i j).length ≤ cap := by
  have hsub : row h cap b i j ⊆ List.range cap := fun x hx => List.mem_range.2 (row_sub hj x hx)
  simpa using (List.subperm_of_subset (row_nodup hc b i j hi hj) hsub).length_le

theorem fillInner_spec {h cap i : Nat} {perms : List Nat} (hcap : cap < h) (hh : h < 40000)
    (hc : ∀ j < cap, Nat.Coprime h (j % (h - 1) + 1)) (hi : i < h)
    (hperms : ∀ i' j', i' < cap → j' < h → perms[i' * h + j']? = some (bucket h i' j')) :
    ∀ k j s, k + j = cap → FillInv h cap i j s →
      ∃ s', fillInner h cap i perms k j s = some s' ∧ FillInv h cap i cap s' := by
  intro k
  induction k with
  | zero =>
    intro j s hj inv
    have : j = cap := by omega
    subst this
    exact ⟨s, rfl, inv⟩
  | succ k ih =>
    rintro j ⟨next, data⟩ hj inv
    have hjc : j < cap := by omega
    set b := bucket h j i with hb
    have hbl : b < h := Nat.mod_lt _ (by omega)
    have hn := inv.next b hbl
    have hroom := row_room hc hi hjc
    rw [← hb] at hroom
    set pr := (row h cap b i j).length with hpr
    have hn1 : b < next.length := by have := inv.len1; simp only at this; omega
    have hd1 : cap * b + pr < data.length := by
      have h2 := inv.len2; simp only at h2; rw [h2]
      calc cap * b + pr < cap * b + cap := by omega
        _ = cap * (b + 1) := by ring
        _ ≤ cap * h := Nat.mul_le_mul_left _ hbl
        _ = h * cap := Nat.mul_comm _ _
    have hj16 : j % 2 ^ 16 = j := Nat.mod_eq_of_lt (by omega)
    obtain ⟨s', e, inv'⟩ := ih (j + 1) (next.set b (pr + 1), data.set (cap * b + pr) j) (by omega) (by
      refine ⟨by simpa using inv.len1, by simpa using inv.len2, ?_, ?_⟩
      · intro c hcl
        rw [row_succ]
        by_cases hcb : c = b
        · subst hcb
          simp [← hb, hn1, ← hpr]
        · have := inv.next c hcl
          simp only at this
          rw [if_neg (by rw [← hb]; exact Ne.symm hcb)]
          simp [List.getElem?_set_ne (Ne.symm hcb), this]
      · intro c hcl k' v' hk
        rw [row_succ] at hk
        have hkc : k' < cap := by
          have h1 := row_le_cap (b := c) hc hi (by omega : j + 1 ≤ cap)
          rw [row_succ] at h1
          have h2 := (List.getElem?_eq_some_iff.1 hk).1
          omega
        by_cases hcb : c = b
        · subst hcb
          rw [if_pos hb.symm] at hk
          by_cases hkp : k' < pr
          · rw [List.getElem?_append_left hkp] at hk
            have := inv.data b hbl k' v' hk
            simp only at this ⊢
            rwa [List.getElem?_set_ne (by omega)]
          · have hlt := (List.getElem?_eq_some_iff.1 hk).1
            simp only [List.length_append, List.length_cons, List.length_nil, ← hpr] at hlt
            have hkk : k' = pr := by omega
            subst hkk
            rw [List.getElem?_append_right (by omega)] at hk
            simp [← hpr] at hk
            subst hk
            simp [hd1]
        · rw [if_neg (by rw [← hb]; exact Ne.symm hcb)] at hk
          simp only [List.append_nil] at hk
          have := inv.data c hcl k' v' hk
          simp only at this ⊢
          rw [List.getElem?_set_ne]
          · exact this
          · intro he
            have := (index_inj (h := cap) (i := b) (i' := c) (j := pr) (j' := k') (by omega) hkc
              (by rw [Nat.mul_comm b, Nat.mul_comm c]; exact he)).1
            exact hcb this.symm)
    refine ⟨s', ?_, inv'⟩
    rw [fillInner, hperms j i hjc hi]
    simp only [Option.bind_eq_bind, Option.bind_some]
    simp only [← hb]
    simp only at hn
    rw [hn]
    simp only [Option.bind_some]
    rw [store_spec hn1]
    simp only [Option.bind_some]
    rw [store_spec hd1]
    simp only [Option.bind_some, hj16]
    exact e

theorem fillOuter_spec {h cap : Nat} {perms : List Nat} (hcap : cap < h) (hh : h < 40000)
    (hc : ∀ j < cap, Nat.Coprime h (j % (h - 1) + 1))
    (hperms : ∀ i' j', i' < cap → j' < h → perms[i' * h + j']? = some (bucket h i' j')) :
    ∀ k i s, k + i = h → FillInv h cap i 0 s →
      ∃ s', fillOuter h cap perms k i s = some s' ∧ FillInv h cap h 0 s' := by
  intro k
  induction k with
  | zero =>
    intro i s hi inv
    have : i = h := by omega
    subst this
    exact ⟨s, rfl, inv⟩
  | succ k ih =>
    intro i s hi inv
    obtain ⟨s1, e1, inv1⟩ := fillInner_spec hcap hh hc (by omega : i < h) hperms cap 0 s (by omega) inv
    have inv1' : FillInv h cap (i + 1) 0 s1 := by
      refine ⟨inv1.len1, inv1.len2, ?_, ?_⟩
      · intro b hb; rw [row_next]; exact inv1.next b hb
      · intro b hb k' v'; rw [row_next]; exact inv1.data b hb k' v'
    obtain ⟨s2, e2, inv2⟩ := ih (i + 1) s1 (by omega) inv1'
    refine ⟨s2, ?_, inv2⟩
    simp only [fillOuter, e1, Option.bind_eq_bind, Option.bind_some, e2]

theorem alloc_spec {h cap : Nat} (hcap : cap < h) (hh : h < 40000)
    (hc : ∀ j < cap, Nat.Coprime h (j % (h - 1) + 1)) :
    ∃ c, alloc h cap = some c ∧ c.height = h ∧ c.cap = cap ∧
      ∀ b < h, ∃ r : List Nat, r.Perm (List.range cap) ∧
        ∀ k < cap, c.data[b * cap + k]? = r[k]? := by
  obtain ⟨perms, e1, _, hp, _⟩ := permOuter_spec (h := h) (cap := cap) hh cap 0 (List.replicate (h * cap) 0) (by omega) (by simp)
  obtain ⟨⟨nx, data⟩, e2, inv⟩ := fillOuter_spec (perms := perms) hcap hh hc (fun i' j' h1 h2 => hp i' j' (by omega) h1 h2)
    h 0 (List.replicate h 0, List.replicate (h * cap) 0) (by omega) (by
      refine ⟨by simp, by simp, ?_, ?_⟩
      · intro b hb; simp [row, visited, hb]
      · intro b hb k v hk; simp [row, visited] at hk)
  refine ⟨⟨data, h, cap⟩, ?_, rfl, rfl, ?_⟩
  · simp only [alloc, e1, Option.bind_eq_bind, Option.bind_some, e2]
  · intro b hb
    have hrow : row h cap b h 0 = row h cap b (h - 1) cap := by
      conv_lhs => rw [show h = (h - 1) + 1 by omega]
      have := row_next h cap b (h - 1)
      rwa [show h - 1 + 1 = h by omega] at this ⊢
    have hnd := row_nodup hc b (h - 1) cap (by omega) (le_refl _)
    have hperm : (row h cap b h 0).Perm (List.range cap) := by
      rw [hrow]
      have hsub : List.range cap ⊆ row h cap b (h - 1) cap := by
        intro j hj
        have hj := List.mem_range.1 hj
        obtain ⟨i, hi, hbi⟩ := bucket_surj (hc j hj) hb
        rw [← hrow]
        simp only [row, List.mem_map, List.mem_filter, decide_eq_true_eq]
        refine ⟨(i, j), ⟨?_, hbi⟩, rfl⟩
        simp [visited, hi, hj]
      have hsub2 : row h cap b (h - 1) cap ⊆ List.range cap :=
        fun x hx => List.mem_range.2 (row_sub (le_refl _) x hx)
      have h1 := List.subperm_of_subset List.nodup_range hsub
      have h2 := (List.subperm_of_subset hnd hsub2).length_le
      exact (h1.perm_of_length_le h2).symm
    refine ⟨_, hperm, ?_⟩
    intro k hk
    have hl : (row h cap b h 0).length = cap := by simpa using hperm.length_eq
    have hget : (row h cap b h 0)[k]? = some ((row h cap b h 0)[k]'(by omega)) := List.getElem?_eq_getElem (by omega)
    rw [hget]
    have := inv.data b hb k _ hget
    rw [Nat.mul_comm]; exact this

theorem findLoop_spec (c : Cht) (pool : IndexPool.Pool) (time base n : Nat) (r : List Nat) (live : Nat → Bool)
    (hr : ∀ k < n, c.data[base + k]? = r[k]?) (hl : r.length = n)
    (hlive : ∀ x, IndexPool.used pool time x = some (live x)) :
    ∀ k i, k + i = n → findLoop c pool time base k i = some ((r.drop i).find? live) := by
  intro k
  induction k with
  | zero => intro i hi; rw [findLoop, List.drop_eq_nil_of_le (by omega)]; rfl
  | succ k ih =>
    intro i hi
    have hir : i < r.length := by omega
    rw [findLoop, hr i (by omega), List.getElem?_eq_getElem hir, List.drop_eq_getElem_cons hir]
    simp only [Option.bind_eq_bind, Option.bind_some, hlive]
    rw [List.find?_cons]
    cases hv : live r[i]
    · simp only [Bool.false_eq_true, ↓reduceIte]; exact ih (i + 1) (by omega)
    · simp

end Verif.Cht
