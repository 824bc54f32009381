/-
The predicate `mapp` of map.c's annotations (Spec/MapPred) and the invariant used for C03 (Env/HashMapProofs) say the same.
-/
import Verif.Env.HashMapProofs
import Verif.Spec.BucketsProofs
import Verif.Spec.MapPred

set_option autoImplicit false

namespace Verif.MapPred
open Verif.Buckets
open Verif.ProofLib (loopFp isPow2 pow2 powNat)
open Verif.HashMap (Item Map Inv Rep dist slot passes)

/-- The key in a slot. -/
def keyOf (mem : Mem) (ks : Nat) (it : Item) : Option Key :=
  if it.keyAddr = 0 then none else some (bytesAt mem it.keyAddr ks)

theorem keyOptList_iff (mem : Mem) (ks : Nat) (as : List Nat) (opts : List (Option Key)) :
    keyOptList mem ks as opts ↔ opts = as.map fun a => if a = 0 then none else some (bytesAt mem a ks) := by
  induction as generalizing opts with
  | nil => rfl
  | cons a as ih =>
    simp only [keyOptList, ih, List.map_cons]
    constructor
    · rintro ⟨t, rfl, h⟩
      split at h <;> simp [*]
    · intro h
      refine ⟨_, rfl, ?_⟩
      split <;> simp [*]

theorem hashList_iff (hf : Key → Nat) (opts : List (Option Key)) (hashes : List Nat) :
    hashList hf opts hashes ↔ hashes.length = opts.length ∧
      ∀ (j : Nat) (k : Key) (h : Nat), opts[j]? = some (some k) → hashes[j]? = some h → h = hf k := by
  induction opts generalizing hashes with
  | nil => simp [hashList]
  | cons o os ih =>
    simp only [hashList, ih]
    constructor
    · rintro ⟨hh, ht, rfl, ⟨h1, h2⟩, h3⟩
      refine ⟨by simp [h1], ?_⟩
      intro j k h hj hh'
      cases j with
      | zero =>
        simp only [List.getElem?_cons_zero, Option.some.injEq] at hj hh'
        subst hj; subst hh'; exact h3
      | succ j => exact h2 j k h (by simpa using hj) (by simpa using hh')
    · rintro ⟨h1, h2⟩
      cases hashes with
      | nil => simp at h1
      | cons hh ht =>
        refine ⟨hh, ht, rfl, ⟨by simpa using h1, fun j k h hj hh' => h2 (j + 1) k h (by simpa using hj) (by simpa using hh')⟩, ?_⟩
        cases o with
        | none => trivial
        | some k => exact h2 0 k hh rfl rfl

theorem optNoDups_iff {α : Type} (l : List (Option α)) : optNoDups l ↔
    ∀ (i j : Nat) (k : α), l[i]? = some (some k) → l[j]? = some (some k) → i = j := by
  induction l with
  | nil => simp [optNoDups]
  | cons o os ih =>
    simp only [optNoDups, ih]
    constructor
    · rintro ⟨h1, h2⟩ i j k hi hj
      have hno : ∀ (n : Nat), o = some k → os[n]? = some (some k) → False := by
        intro n ho hn
        rcases h2 with h2 | h2
        · rw [h2] at ho; cases ho
        · exact h2 (ho ▸ List.mem_of_getElem? hn)
      cases i with
      | zero =>
        cases j with
        | zero => rfl
        | succ j => exact absurd (by simpa using hj) (fun h => hno j (by simpa using hi) h)
      | succ i =>
        cases j with
        | zero => exact absurd (by simpa using hi) (fun h => hno i (by simpa using hj) h)
        | succ j => rw [h1 i j k (by simpa using hi) (by simpa using hj)]
    · intro h
      refine ⟨fun i j k hi hj => ?_, ?_⟩
      · have := h (i + 1) (j + 1) k (by simpa using hi) (by simpa using hj); omega
      · cases o with
        | none => exact Or.inl rfl
        | some k =>
          right
          intro hm
          obtain ⟨n, hn⟩ := List.getElem?_of_mem hm
          have := h 0 (n + 1) k rfl (by simpa using hn)
          omega

theorem gmap_nil {V : Type} (m : GMap Key V) (h : ∀ k v, m.get k = some v → False) : m = [] := by
  cases m with
  | nil => rfl
  | cons x t =>
    obtain ⟨k, v⟩ := x
    exact absurd (by simp [GMap.get]) (h k v)

theorem mva_iff (kaddrs : List Nat) (opts : List (Option Key)) (vals : List Nat) (mv ma : GMap Key Nat)
    (hnd : optNoDups opts) :
    mapValuesAddrs kaddrs opts vals mv ma ↔ opts.length = kaddrs.length ∧ vals.length = kaddrs.length ∧
      GMap.Distinct mv ∧ GMap.Distinct ma ∧
      (∀ k v, mv.get k = some v ↔ ∃ j : Nat, opts[j]? = some (some k) ∧ vals[j]? = some v) ∧
      (∀ k a, ma.get k = some a ↔ ∃ j : Nat, opts[j]? = some (some k) ∧ kaddrs[j]? = some a) := by
  induction kaddrs generalizing opts vals mv ma with
  | nil =>
    simp only [mapValuesAddrs]
    constructor
    · rintro ⟨rfl, rfl, rfl, rfl⟩
      simp [GMap.distinct_nil, GMap.get]
    · rintro ⟨h1, h2, _, _, h3, h4⟩
      obtain rfl : opts = [] := List.length_eq_zero_iff.1 h1
      obtain rfl : vals = [] := List.length_eq_zero_iff.1 h2
      refine ⟨rfl, rfl, gmap_nil _ fun k v h => ?_, gmap_nil _ fun k v h => ?_⟩
      · obtain ⟨j, hj, _⟩ := (h3 k v).1 h; simp at hj
      · obtain ⟨j, hj, _⟩ := (h4 k v).1 h; simp at hj
  | cons a as ih =>
    have aux : ∀ (m : GMap Key Nat) (o : Option Key) (os : List (Option Key)) (x : Nat) (xs : List Nat),
        optNoDups (o :: os) →
        ((∀ k v, m.get k = some v ↔ ∃ j : Nat, (o :: os)[j]? = some (some k) ∧ (x :: xs)[j]? = some v) ↔
          match o with
          | none => ∀ k v, m.get k = some v ↔ ∃ j : Nat, os[j]? = some (some k) ∧ xs[j]? = some v
          | some k0 => m.get k0 = some x ∧
              ∀ k v, (m.remove k0).get k = some v ↔ ∃ j : Nat, os[j]? = some (some k) ∧ xs[j]? = some v) := by
      intro m o os x xs hnd
      have hsplit : ∀ k v, (∃ j : Nat, (o :: os)[j]? = some (some k) ∧ (x :: xs)[j]? = some v) ↔
          (o = some k ∧ x = v) ∨ ∃ j : Nat, os[j]? = some (some k) ∧ xs[j]? = some v := by
        intro k v
        constructor
        · rintro ⟨j, h1, h2⟩
          cases j with
          | zero => exact Or.inl ⟨by simpa using h1, by simpa using h2⟩
          | succ j => exact Or.inr ⟨j, by simpa using h1, by simpa using h2⟩
        · rintro (⟨h1, h2⟩ | ⟨j, h1, h2⟩)
          · exact ⟨0, by simpa using h1, by simpa using h2⟩
          · exact ⟨j + 1, by simpa using h1, by simpa using h2⟩
      simp only [hsplit]
      cases o with
      | none => simp
      | some k0 =>
        have hno : ∀ j : Nat, os[j]? ≠ some (some k0) := by
          intro j hj
          have := (optNoDups_iff _).1 hnd 0 (j + 1) k0 rfl (by simpa using hj)
          omega
        simp only [GMap.get_remove, Option.some.injEq]
        constructor
        · intro h
          refine ⟨(h k0 x).2 (Or.inl ⟨rfl, rfl⟩), fun k v => ?_⟩
          by_cases hk : k0 = k
          · subst hk
            simp only [if_true]
            constructor
            · intro h'; cases h'
            · rintro ⟨j, hj, _⟩; exact absurd hj (hno j)
          · rw [if_neg hk, h k v]
            simp [hk]
        · rintro ⟨h1, h2⟩ k v
          by_cases hk : k0 = k
          · subst hk
            rw [h1]
            constructor
            · intro h'; exact Or.inl ⟨rfl, by simpa using h'⟩
            · rintro (⟨_, h'⟩ | ⟨j, hj, _⟩)
              · rw [h']
              · exact absurd hj (hno j)
          · have := h2 k v
            rw [if_neg hk] at this
            rw [this]
            simp [hk]
    simp only [mapValuesAddrs]
    constructor
    · rintro ⟨o, os, v, vs, mr, ar, rfl, rfl, hr, d1, d2, hm⟩
      obtain ⟨l1, l2, _, _, h3, h4⟩ := (ih os vs mr ar hnd.1).1 hr
      refine ⟨by simp [l1], by simp [l2], d1, d2, (aux _ _ _ _ _ hnd).2 ?_, (aux _ _ _ _ _ hnd).2 ?_⟩
      · cases o with
        | none => obtain ⟨rfl, rfl⟩ := hm; exact h3
        | some k0 => obtain ⟨rfl, rfl, e1, e2⟩ := hm; exact ⟨e1.symm, h3⟩
      · cases o with
        | none => obtain ⟨rfl, rfl⟩ := hm; exact h4
        | some k0 => obtain ⟨rfl, rfl, e1, e2⟩ := hm; exact ⟨e2.symm, h4⟩
    · rintro ⟨l1, l2, d1, d2, h3, h4⟩
      cases opts with
      | nil => simp at l1
      | cons o os =>
        cases vals with
        | nil => simp at l2
        | cons v vs =>
          have h3' := (aux _ _ _ _ _ hnd).1 h3
          have h4' := (aux _ _ _ _ _ hnd).1 h4
          cases o with
          | none =>
            exact ⟨none, os, v, vs, mv, ma, rfl, rfl,
              (ih os vs mv ma hnd.1).2 ⟨by simpa using l1, by simpa using l2, d1, d2, h3', h4'⟩, d1, d2, rfl, rfl⟩
          | some k0 =>
            exact ⟨some k0, os, v, vs, mv.remove k0, ma.remove k0, rfl, rfl,
              (ih os vs _ _ hnd.1).2 ⟨by simpa using l1, by simpa using l2, GMap.distinct_remove d1 _,
                GMap.distinct_remove d2 _, h3'.2, h4'.2⟩, d1, d2, rfl, rfl, h3'.1.symm, h4'.1.symm⟩

theorem mva_size (kaddrs : List Nat) (opts : List (Option Key)) (vals : List Nat) (mv ma : GMap Key Nat)
    (h : mapValuesAddrs kaddrs opts vals mv ma) : optsSize opts = mv.length ∧ optsSize opts = ma.length := by
  induction kaddrs generalizing opts vals mv ma with
  | nil => obtain ⟨rfl, rfl, rfl, rfl⟩ := h; exact ⟨rfl, rfl⟩
  | cons a as ih =>
    obtain ⟨o, os, v, vs, mr, ar, rfl, rfl, hr, d1, d2, hm⟩ := h
    obtain ⟨i1, i2⟩ := ih os vs mr ar hr
    cases o with
    | none =>
      obtain ⟨rfl, rfl⟩ := hm
      simp only [optsSize, if_true]
      omega
    | some k0 =>
      obtain ⟨rfl, rfl, e1, e2⟩ := hm
      rw [GMap.length_remove d1, ← e1] at i1
      rw [GMap.length_remove d2, ← e2] at i2
      have p1 : mv.length ≠ 0 := by
        intro h0; rw [List.length_eq_zero_iff.1 h0] at e1; simp [GMap.get] at e1
      have p2 : ma.length ≠ 0 := by
        intro h0; rw [List.length_eq_zero_iff.1 h0] at e2; simp [GMap.get] at e2
      simp only [reduceCtorEq, if_false] at i1 i2
      simp only [optsSize, reduceCtorEq, if_false]
      omega

theorem optsSize_le (opts : List (Option Key)) : optsSize opts ≤ opts.length := by
  induction opts with
  | nil => exact le_refl _
  | cons o os ih =>
    simp only [optsSize, List.length_cons]
    split <;> omega

theorem startOnHash_iff (hf : Key → Nat) (bs : List (Bucket Key)) (pos cap : Nat) (hcap : 0 < cap) :
    keyChainsStartOnHash hf bs pos cap ↔ ∀ (i : Nat) (k : Key) (d : Nat), (k, d) ∈ bs.getD i [] → pos + i = hf k % cap := by
  induction bs generalizing pos with
  | nil => simp [keyChainsStartOnHash]
  | cons b bs ih =>
    have e : (pos : Int) + 1 = ((pos + 1 : Nat) : Int) := by omega
    simp only [keyChainsStartOnHash, hasGivenHash, e, ih]
    constructor
    · rintro ⟨h1, h2⟩ i k d hm
      cases i with
      | zero =>
        have := h1 (k, d) (by simpa using hm)
        rw [loopFp_nat _ _ hcap] at this
        simp only at this
        omega
      | succ i =>
        have := h2 i k d (by simpa using hm)
        omega
    · intro h
      refine ⟨?_, fun i k d hm => ?_⟩
      · rintro ⟨k, d⟩ hm
        have := h 0 k d (by simpa using hm)
        rw [loopFp_nat _ _ hcap]
        simp only
        omega
      · have := h (i + 1) k d (by simpa using hm)
        omega

theorem isPow2_iff (n x : Nat) : isPow2 x n ≠ none ↔ ∃ p ≤ n, x = 2 ^ p := by
  have hp : ∀ m : Nat, pow2 m = ((2 ^ m : Nat) : Int) := by
    intro m
    induction m with
    | zero => rfl
    | succ m ih =>
      have : pow2 (m + 1) = 2 * pow2 m := by
        simp only [pow2, powNat]
      rw [this, ih]
      push_cast
      ring
  induction n with
  | zero =>
    simp only [isPow2, hp]
    split
    · rename_i h; simp; simpa using h
    · rename_i h; simp; simpa using h
  | succ n ih =>
    simp only [isPow2, hp]
    split
    · rename_i h
      simp only [ne_eq, reduceCtorEq, not_false_eq_true, true_iff]
      exact ⟨n + 1, le_refl _, by exact_mod_cast h⟩
    · rename_i h
      refine ih.trans ⟨?_, ?_⟩
      · rintro ⟨p, h1, h2⟩; exact ⟨p, by omega, h2⟩
      · rintro ⟨p, h1, h2⟩
        refine ⟨p, ?_, h2⟩
        by_contra hp'
        have : p = n + 1 := by omega
        subst this
        exact h (by exact_mod_cast h2)

/-! ### The counters -/

theorem weight_short {n j i d : Nat} (hi : i < n) (hj : j < n) (hd : d < n) :
    weight n j i d = if (j + n - i) % n < d then 1 else 0 := by
  have hm : (j + n - i) % n = if i ≤ j then j - i else j + n - i := by
    split
    · rename_i h
      rw [show j + n - i = (j - i) + n by omega, Nat.add_mod_right, Nat.mod_eq_of_lt (by omega)]
    · exact Nat.mod_eq_of_lt (by omega)
  rw [hm]
  unfold weight
  split <;> (repeat' split) <;> omega

theorem sum_range_flatMap {β : Type} (n : Nat) (f : Nat → List β) (w : Nat → β → Nat) :
    ((List.range n).map fun i => ((f i).map (w i)).sum).sum =
      (((List.range n).flatMap fun i => (f i).map fun b => (i, b)).map fun x => w x.1 x.2).sum := by
  induction (List.range n) with
  | nil => rfl
  | cons i l ih => simp [ih, Function.comp_def]

theorem sum_ite_countP {β : Type} (l : List β) (p : β → Bool) :
    (l.map fun x => if p x then 1 else 0).sum = l.countP p := by
  induction l with
  | nil => rfl
  | cons x l ih =>
    simp only [List.map_cons, List.sum_cons, ih, List.countP_cons]
    omega

/-- The chains of all buckets, with the bucket they begin in. -/
def chainList (bs : List (Bucket Key)) : List (Nat × (Key × Nat)) :=
  (List.range bs.length).flatMap fun i => (bs.getD i []).map fun b => (i, b)

theorem mem_chainList (bs : List (Bucket Key)) (i : Nat) (k : Key) (d : Nat) :
    (i, (k, d)) ∈ chainList bs ↔ (k, d) ∈ bs.getD i [] := by
  simp only [chainList, List.mem_flatMap, List.mem_range, List.mem_map, Prod.mk.injEq]
  constructor
  · rintro ⟨i', _, b, hb, rfl, rfl⟩; exact hb
  · intro h; exact ⟨i, getD_lt bs i _ h, _, h, rfl, rfl⟩

theorem chainList_nodup (bs : List (Bucket Key)) (hk : (bucketsAllKeys bs).Nodup) :
    (chainList bs).Nodup := by
  have : ((chainList bs).map fun x => x.2.1) = bucketsAllKeys bs := by
    rw [allKeys_eq, chainList, List.map_flatMap]
    simp [Function.comp_def]
  apply List.Nodup.of_map (f := fun x => x.2.1)
  rw [this]; exact hk

theorem chns_count (hf : Key → Nat) (mem : Mem) (ks : Nat) (items : List Item) (bs : List (Bucket Key)) (ok : Ok bs)
    (hlen : items.length = bs.length)
    (hhash : ∀ (j : Nat) (it : Item), items[j]? = some it → it.keyAddr ≠ 0 → it.keyHash = hf (bytesAt mem it.keyAddr ks))
    (hstart : ∀ (i : Nat) (k : Key) (d : Nat), (k, d) ∈ bs.getD i [] → i = hf k % bs.length)
    (hkeys : items.map (keyOf mem ks) = bucketsGetKeys bs) (j : Nat) (hj : j < bs.length) :
    (bucketsGetChns bs)[j]? =
      some (Nat.cast (R := Int) ((List.range bs.length).countP (passes bs.length items j))) := by
  rw [chns_get bs j hj, sum_range_flatMap]
  congr 2
  change ((chainList bs).map _).sum = _
  have hw : (chainList bs).map (fun x => weight bs.length j x.1 x.2.2) =
      (chainList bs).map (fun x => if decide ((j + bs.length - x.1) % bs.length < x.2.2) = true then 1 else 0) := by
    apply List.map_congr_left
    rintro ⟨i, k, d⟩ hm
    have hm' := (mem_chainList bs i k d).1 hm
    simp only [decide_eq_true_eq]
    exact weight_short (getD_lt bs i _ hm') hj (ok.2.1 i k d hm')
  rw [hw, sum_ite_countP]
  -- each chain ends in the slot of its key
  have hslot : ∀ (i : Nat) (k : Key) (d : Nat), (k, d) ∈ bs.getD i [] →
      ∃ it, items[(i + d) % bs.length]? = some it ∧ it.keyAddr ≠ 0 ∧ bytesAt mem it.keyAddr ks = k := by
    intro i k d hm
    have hl : (i + d) % bs.length < bs.length := Nat.mod_lt _ (by omega)
    have := (keys_iff bs ok _ hl k).2 ⟨i, d, hm, rfl⟩
    rw [← hkeys, List.getElem?_map] at this
    obtain ⟨it, h1, h2⟩ := Option.map_eq_some_iff.1 this
    refine ⟨it, h1, ?_⟩
    unfold keyOf at h2
    split at h2
    · cases h2
    · rename_i h0; exact ⟨h0, by simpa using h2⟩
  let f : Nat × (Key × Nat) → Nat := fun x => (x.1 + x.2.2) % bs.length
  have hpass : ∀ x ∈ chainList bs, decide ((j + bs.length - x.1) % bs.length < x.2.2) = passes bs.length items j (f x) := by
    rintro ⟨i, k, d⟩ hm
    have hm' := (mem_chainList bs i k d).1 hm
    have hi := getD_lt bs i _ hm'
    obtain ⟨it, h1, h2, h3⟩ := hslot i k d hm'
    have hs := hstart i k d hm'
    have hd := ok.2.1 i k d hm'
    have hh := hhash _ it h1 h2
    have e1 : dist bs.length it.keyHash j = (j + bs.length - i) % bs.length := by
      unfold dist; rw [hh, h3, ← hs]
    have e2 : dist bs.length it.keyHash ((i + d) % bs.length) = d := by
      unfold dist; rw [hh, h3, ← hs]; exact here_zero_of_end hi hd
    simp only [f, passes, h1, e1, e2]
    simp [h2]
  rw [List.countP_congr (q := fun x => passes bs.length items j (f x)) (by
    intro x hx; rw [hpass x hx]),
    show (fun x => passes bs.length items j (f x)) = passes bs.length items j ∘ f from rfl, ← List.countP_map]
  -- the slots of the chains are the occupied ones
  let occ : Nat → Bool := fun s => match items[s]? with
    | some it => decide (it.keyAddr ≠ 0)
    | none => false
  have hperm : ((chainList bs).map f).Perm ((List.range bs.length).filter occ) := by
    rw [List.perm_ext_iff_of_nodup]
    · intro s
      simp only [List.mem_map, List.mem_filter, List.mem_range]
      constructor
      · rintro ⟨⟨i, k, d⟩, hm, rfl⟩
        have hm' := (mem_chainList bs i k d).1 hm
        obtain ⟨it, h1, h2, _⟩ := hslot i k d hm'
        exact ⟨Nat.mod_lt _ (by omega), by simp only [f, occ, h1]; simp [h2]⟩
      · rintro ⟨hs, ho⟩
        have hit := List.getElem?_eq_getElem (l := items) (by omega : s < items.length)
        simp only [occ, hit, decide_eq_true_eq] at ho
        have hk : (bucketsGetKeys bs)[s]? = some (some (bytesAt mem items[s].keyAddr ks)) := by
          rw [← hkeys, List.getElem?_map, hit, Option.map_some, keyOf, if_neg ho]
        obtain ⟨i, d, hm, he⟩ := (keys_iff bs ok s hs _).1 hk
        exact ⟨(i, (_, d)), (mem_chainList bs i _ d).2 hm, he⟩
    · apply List.Nodup.map_on _ (chainList_nodup bs ok.1)
      rintro ⟨i, k, d⟩ hm ⟨i', k', d'⟩ hm' he
      have h1 := (mem_chainList bs i k d).1 hm
      have h2 := (mem_chainList bs i' k' d').1 hm'
      have hk := ok.2.2 i k d i' k' d' h1 h2 he
      subst hk
      obtain ⟨rfl, rfl⟩ := chain_unique bs ok.1 k i i' d d' h1 h2
      rfl
    · exact List.nodup_range.filter _
  rw [hperm.countP_eq, List.countP_filter]
  apply List.countP_congr
  intro s _
  simp only [passes, occ]
  cases items[s]? with
  | none => simp
  | some it =>
    simp only [ne_eq, Bool.and_eq_true, decide_eq_true_eq]
    tauto

/-! ### `mapp_core` slot by slot -/

/-- What `mapp_core` says of the items. -/
structure Core (hf : Key → Nat) (mem : Mem) (ks : Nat) (items : List Item) (mv ma : GMap Key Nat) : Prop where
  hash : ∀ (j : Nat) (it : Item), items[j]? = some it → it.keyAddr ≠ 0 → it.keyHash = hf (bytesAt mem it.keyAddr ks)
  inj : ∀ (j j' : Nat) (it it' : Item), items[j]? = some it → items[j']? = some it' → it.keyAddr ≠ 0 → it'.keyAddr ≠ 0 →
    bytesAt mem it.keyAddr ks = bytesAt mem it'.keyAddr ks → j = j'
  vals : ∀ k v, mv.get k = some v ↔
    ∃ (j : Nat) (it : Item), items[j]? = some it ∧ it.keyAddr ≠ 0 ∧ bytesAt mem it.keyAddr ks = k ∧ it.value = v
  adrs : ∀ k a, ma.get k = some a ↔
    ∃ (j : Nat) (it : Item), items[j]? = some it ∧ it.keyAddr ≠ 0 ∧ bytesAt mem it.keyAddr ks = k ∧ it.keyAddr = a
  dv : GMap.Distinct mv
  da : GMap.Distinct ma

theorem inv_iff (hf : Key → Nat) (mem : Mem) (ks cap : Nat) (items : List Item) (mv ma : GMap Key Nat) :
    Inv hf mem ks cap items mv ma ↔ items.length = cap ∧ Core hf mem ks items mv ma ∧
      ∀ (j : Nat) (it : Item), items[j]? = some it → it.chain = (List.range cap).countP (passes cap items j) :=
  ⟨fun h => ⟨h.len, ⟨h.hash, h.inj, h.vals, h.adrs, h.dv, h.da⟩, h.chain⟩,
   fun ⟨h1, h2, h3⟩ => ⟨h1, h2.hash, h2.inj, h3, h2.vals, h2.adrs, h2.dv, h2.da⟩⟩

theorem keyOf_some (mem : Mem) (ks : Nat) (it : Item) (k : Key) :
    keyOf mem ks it = some k ↔ it.keyAddr ≠ 0 ∧ bytesAt mem it.keyAddr ks = k := by
  unfold keyOf
  split <;> simp [*]

theorem keyOf_get (mem : Mem) (ks : Nat) (items : List Item) (j : Nat) (k : Key) :
    (items.map (keyOf mem ks))[j]? = some (some k) ↔
      ∃ it, items[j]? = some it ∧ it.keyAddr ≠ 0 ∧ bytesAt mem it.keyAddr ks = k := by
  rw [List.getElem?_map, Option.map_eq_some_iff]
  simp only [keyOf_some]

theorem core_iff (hf : Key → Nat) (mem : Mem) (ks : Nat) (items : List Item) (opts : List (Option Key))
    (mv ma : GMap Key Nat) :
    mappCore hf mem ks items.length (items.map Item.keyAddr) (items.map Item.keyHash) (items.map Item.value) opts mv ma ↔
      opts = items.map (keyOf mem ks) ∧ Core hf mem ks items mv ma := by
  have hopts : keyOptList mem ks (items.map Item.keyAddr) opts ↔ opts = items.map (keyOf mem ks) := by
    rw [keyOptList_iff, List.map_map]; rfl
  have hnd : optNoDups (items.map (keyOf mem ks)) ↔ ∀ (j j' : Nat) (it it' : Item), items[j]? = some it →
      items[j']? = some it' → it.keyAddr ≠ 0 → it'.keyAddr ≠ 0 →
      bytesAt mem it.keyAddr ks = bytesAt mem it'.keyAddr ks → j = j' := by
    rw [optNoDups_iff]
    constructor
    · intro h j j' it it' hj hj' h0 h0' he
      exact h j j' _ ((keyOf_get ..).2 ⟨it, hj, h0, rfl⟩) ((keyOf_get ..).2 ⟨it', hj', h0', he.symm⟩)
    · intro h j j' k hj hj'
      obtain ⟨it, h1, h2, h3⟩ := (keyOf_get ..).1 hj
      obtain ⟨it', h1', h2', h3'⟩ := (keyOf_get ..).1 hj'
      exact h j j' it it' h1 h1' h2 h2' (h3.trans h3'.symm)
  have hhash : hashList hf (items.map (keyOf mem ks)) (items.map Item.keyHash) ↔
      ∀ (j : Nat) (it : Item), items[j]? = some it → it.keyAddr ≠ 0 → it.keyHash = hf (bytesAt mem it.keyAddr ks) := by
    rw [hashList_iff]
    simp only [List.length_map, true_and]
    constructor
    · intro h j it hj h0
      exact h j _ it.keyHash ((keyOf_get ..).2 ⟨it, hj, h0, rfl⟩) (by rw [List.getElem?_map, hj]; rfl)
    · intro h j k x hj hx
      obtain ⟨it, h1, h2, h3⟩ := (keyOf_get ..).1 hj
      rw [List.getElem?_map, h1] at hx
      simp only [Option.map_some, Option.some.injEq] at hx
      rw [← hx, h j it h1 h2, h3]
  have hget : ∀ (f : Item → Nat) (k : Key) (v : Nat),
      (∃ j : Nat, (items.map (keyOf mem ks))[j]? = some (some k) ∧ (items.map f)[j]? = some v) ↔
        ∃ (j : Nat) (it : Item), items[j]? = some it ∧ it.keyAddr ≠ 0 ∧ bytesAt mem it.keyAddr ks = k ∧ f it = v := by
    intro f k v
    constructor
    · rintro ⟨j, hj, hv⟩
      obtain ⟨it, h1, h2, h3⟩ := (keyOf_get ..).1 hj
      rw [List.getElem?_map, h1] at hv
      exact ⟨j, it, h1, h2, h3, by simpa using hv⟩
    · rintro ⟨j, it, h1, h2, h3, rfl⟩
      exact ⟨j, (keyOf_get ..).2 ⟨it, h1, h2, h3⟩, by rw [List.getElem?_map, h1]; rfl⟩
  unfold mappCore
  rw [hopts]
  constructor
  · rintro ⟨rfl, h1, h2, h3, h4, h5, _⟩
    obtain ⟨_, _, _, _, h6, h7⟩ := (mva_iff _ _ _ _ _ h3).1 h1
    exact ⟨rfl, hhash.1 h2, hnd.1 h3, fun k v => (h6 k v).trans (hget _ k v), fun k v => (h7 k v).trans (hget _ k v), h4, h5⟩
  · rintro ⟨rfl, c⟩
    have h3 := hnd.2 c.inj
    have h1 : mapValuesAddrs (items.map Item.keyAddr) (items.map (keyOf mem ks)) (items.map Item.value) mv ma :=
      (mva_iff _ _ _ _ _ h3).2 ⟨by simp, by simp, c.dv, c.da,
        fun k v => (c.vals k v).trans (hget _ k v).symm, fun k v => (c.adrs k v).trans (hget _ k v).symm⟩
    have h8 := mva_size _ _ _ _ _ h1
    exact ⟨rfl, h1, hhash.2 c.hash, h3, c.dv, c.da, by simp, optsSize_le _, h8.1, by omega⟩

/-! ### Buckets for the items -/

/-- The keys whose hash is that of slot `i`, with their distance. -/
def bucketOf (hf : Key → Nat) (mem : Mem) (ks : Nat) (items : List Item) (i : Nat) : Bucket Key :=
  (List.range items.length).filterMap fun j => match items[j]? with
    | some it => if it.keyAddr ≠ 0 ∧ hf (bytesAt mem it.keyAddr ks) % items.length = i then
        some (bytesAt mem it.keyAddr ks, dist items.length (hf (bytesAt mem it.keyAddr ks)) j) else none
    | none => none

/-- The buckets of the items. -/
def bucketsOf (hf : Key → Nat) (mem : Mem) (ks : Nat) (items : List Item) : List (Bucket Key) :=
  (List.range items.length).map (bucketOf hf mem ks items)

section
variable {hf : Key → Nat} {mem : Mem} {ks : Nat} {items : List Item} {mv ma : GMap Key Nat}

theorem mem_bucketOf (i : Nat) (k : Key) (d : Nat) : (k, d) ∈ bucketOf hf mem ks items i ↔
    ∃ (j : Nat) (it : Item), items[j]? = some it ∧ it.keyAddr ≠ 0 ∧ bytesAt mem it.keyAddr ks = k ∧
      hf k % items.length = i ∧ d = dist items.length (hf k) j := by
  simp only [bucketOf, List.mem_filterMap, List.mem_range]
  constructor
  · rintro ⟨j, hj, h⟩
    rw [List.getElem?_eq_getElem hj] at h
    simp only at h
    split at h
    · rename_i hc
      simp only [Option.some.injEq, Prod.mk.injEq] at h
      obtain ⟨rfl, rfl⟩ := h
      exact ⟨j, items[j], List.getElem?_eq_getElem hj, hc.1, rfl, hc.2, rfl⟩
    · cases h
  · rintro ⟨j, it, hj, h0, rfl, h1, rfl⟩
    refine ⟨j, HashMap.getElem?_lt hj, ?_⟩
    rw [hj]
    simp only [ne_eq, h0, not_false_eq_true, h1, and_self, if_true]

theorem bucketsOf_length : (bucketsOf hf mem ks items).length = items.length := by simp [bucketsOf]

theorem bucketsOf_getD (i : Nat) (hi : i < items.length) :
    (bucketsOf hf mem ks items).getD i [] = bucketOf hf mem ks items i := by
  rw [List.getD_eq_getElem?_getD, bucketsOf, List.getElem?_map, List.getElem?_range hi]
  rfl

theorem mem_bucketsOf (i : Nat) (k : Key) (d : Nat) : (k, d) ∈ (bucketsOf hf mem ks items).getD i [] ↔
    ∃ (j : Nat) (it : Item), items[j]? = some it ∧ it.keyAddr ≠ 0 ∧ bytesAt mem it.keyAddr ks = k ∧
      hf k % items.length = i ∧ d = dist items.length (hf k) j := by
  constructor
  · intro h
    have hi := getD_lt _ _ _ h
    rw [bucketsOf_length] at hi
    rw [bucketsOf_getD i hi] at h
    exact (mem_bucketOf i k d).1 h
  · rintro ⟨j, it, hj, h0, h1, rfl, h2⟩
    have := HashMap.getElem?_lt hj
    rw [bucketsOf_getD _ (Nat.mod_lt _ (by omega))]
    exact (mem_bucketOf _ k d).2 ⟨j, it, hj, h0, h1, rfl, h2⟩

theorem bucketsOf_ends {j : Nat} {k : Key} (hj : j < items.length) :
    (hf k % items.length + dist items.length (hf k) j) % items.length = j := HashMap.slot_dist hj

theorem bucketsOf_ok (c : Core hf mem ks items mv ma) : Ok (bucketsOf hf mem ks items) := by
  refine ⟨?_, ?_, ?_⟩
  · rw [allKeys_eq, bucketsOf_length, List.nodup_flatMap]
    constructor
    · intro i hi
      rw [bucketsOf_getD i (List.mem_range.1 hi)]
      have hnd : (bucketOf hf mem ks items i).Nodup := by
        apply List.Nodup.filterMap _ List.nodup_range
        intro a a' b hb hb'
        cases ha : items[a]? with
        | none => simp [ha] at hb
        | some it =>
          cases ha' : items[a']? with
          | none => simp [ha'] at hb'
          | some it' =>
            simp only [ha, ha', Option.mem_def] at hb hb'
            split at hb
            · rename_i h1
              split at hb'
              · rename_i h2
                refine c.inj a a' it it' ha ha' h1.1 h2.1 ?_
                have e1 := congrArg Prod.fst (Option.some.inj hb)
                have e2 := congrArg Prod.fst (Option.some.inj hb')
                exact e1.trans e2.symm
              · cases hb'
            · cases hb
      apply List.Nodup.map_on _ hnd
      rintro ⟨k, d⟩ h ⟨k', d'⟩ h' he
      simp only at he
      subst he
      obtain ⟨j, it, h1, h2, h3, _, h5⟩ := (mem_bucketOf i k d).1 h
      obtain ⟨j', it', h1', h2', h3', _, h5'⟩ := (mem_bucketOf i k d').1 h'
      have := c.inj j j' it it' h1 h1' h2 h2' (h3.trans h3'.symm)
      subst this
      rw [h5, h5']
    · refine List.Pairwise.imp_of_mem ?_ List.nodup_range
      intro i i' hi hi' hne
      rw [Function.onFun, bucketsOf_getD i (List.mem_range.1 hi), bucketsOf_getD i' (List.mem_range.1 hi')]
      intro k hk hk'
      obtain ⟨⟨k1, d⟩, h, rfl⟩ := List.mem_map.1 hk
      obtain ⟨⟨k2, d'⟩, h', he⟩ := List.mem_map.1 hk'
      simp only at he
      subst he
      obtain ⟨j, it, h1, h2, h3, h4, h5⟩ := (mem_bucketOf i _ d).1 h
      obtain ⟨j', it', h1', h2', h3', h4', h5'⟩ := (mem_bucketOf i' _ d').1 h'
      exact hne (h4.symm.trans h4')
  · intro i k d h
    obtain ⟨j, it, h1, _, _, _, rfl⟩ := (mem_bucketsOf i k d).1 h
    rw [bucketsOf_length]
    have := HashMap.getElem?_lt h1
    exact HashMap.dist_lt (by omega) _ _
  · intro i k d i' k' d' h h' he
    obtain ⟨j, it, h1, h2, h3, rfl, rfl⟩ := (mem_bucketsOf i k d).1 h
    obtain ⟨j', it', h1', h2', h3', rfl, rfl⟩ := (mem_bucketsOf i' k' d').1 h'
    rw [bucketsOf_length, bucketsOf_ends (HashMap.getElem?_lt h1), bucketsOf_ends (HashMap.getElem?_lt h1')] at he
    subst he
    rw [h1] at h1'; cases h1'
    exact h3.symm.trans h3'

theorem bucketsOf_keys (c : Core hf mem ks items mv ma) :
    items.map (keyOf mem ks) = bucketsGetKeys (bucketsOf hf mem ks items) := by
  apply List.ext_getElem?
  intro j
  by_cases hj : j < items.length
  · have hj' : j < (bucketsOf hf mem ks items).length := by rw [bucketsOf_length]; exact hj
    rw [List.getElem?_map, List.getElem?_eq_getElem hj]
    symm
    refine keys_ext _ j hj' _ fun k => ?_
    rw [keys_iff _ (bucketsOf_ok c) j hj', keyOf_some]
    constructor
    · rintro ⟨i, d, h, he⟩
      obtain ⟨j', it, h1, h2, h3, rfl, rfl⟩ := (mem_bucketsOf i k d).1 h
      rw [bucketsOf_length, bucketsOf_ends (HashMap.getElem?_lt h1)] at he
      subst he
      rw [List.getElem?_eq_getElem hj] at h1; cases h1
      exact ⟨h2, h3⟩
    · rintro ⟨h2, h3⟩
      refine ⟨_, _, (mem_bucketsOf _ k _).2 ⟨j, items[j], List.getElem?_eq_getElem hj, h2, h3, rfl, rfl⟩, ?_⟩
      rw [bucketsOf_length, bucketsOf_ends hj]
  · rw [List.getElem?_eq_none (by simp; omega), List.getElem?_eq_none]
    rw [bucketsGetKeys, keysRec_length, bucketsOf_length]; omega

theorem bucketsOf_start : keyChainsStartOnHash hf (bucketsOf hf mem ks items) 0 items.length := by
  by_cases h0 : items.length = 0
  · have : bucketsOf hf mem ks items = [] := List.length_eq_zero_iff.1 (by rw [bucketsOf_length]; exact h0)
    rw [this]; trivial
  · refine (startOnHash_iff hf _ 0 items.length (by omega)).2 ?_
    intro i k d h
    obtain ⟨j, it, h1, h2, h3, h4, h5⟩ := (mem_bucketsOf i k d).1 h
    omega

/-! ### `mapp` and the invariant -/

/-- The chain counters that belong to buckets in step with the items. -/
theorem insync_chns (c : Core hf mem ks items mv ma) (bs : List (Bucket Key)) (hok : bucketsOk bs)
    (hs : keyChainsStartOnHash hf bs 0 items.length) (hk : items.map (keyOf mem ks) = bucketsGetKeys bs)
    (hl : bs.length = items.length) :
    bucketsGetChns bs = (List.range items.length).map fun j =>
      (((List.range items.length).countP (passes items.length items j) : Nat) : Int) := by
  apply List.ext_getElem?
  intro j
  by_cases hj : j < items.length
  · rw [chns_count hf mem ks items bs ((ok_iff bs).1 hok) hl.symm c.hash (fun i k d hm => by
        have := (startOnHash_iff hf bs 0 items.length (by omega)).1 hs i k d hm
        rw [hl]; omega) hk j (by omega), List.getElem?_map, List.getElem?_range hj, hl]
    rfl
  · rw [List.getElem?_eq_none (by rw [bucketsGetChns, chnsRec_length]; omega),
      List.getElem?_eq_none (by simp; omega)]

theorem inv_insync (inv : Inv hf mem ks items.length items mv ma) :
    bucketsKeysInsync hf items.length (items.map fun it => (it.chain : Int)) (bucketsOf hf mem ks items)
      (items.map (keyOf mem ks)) := by
  obtain ⟨_, c, hch⟩ := (inv_iff ..).1 inv
  refine ⟨?_, (ok_iff _).2 (bucketsOf_ok c), bucketsOf_start, bucketsOf_keys c, bucketsOf_length⟩
  rw [insync_chns c _ ((ok_iff _).2 (bucketsOf_ok c)) bucketsOf_start (bucketsOf_keys c) bucketsOf_length]
  apply List.ext_getElem?
  intro j
  by_cases hj : j < items.length
  · rw [List.getElem?_map, List.getElem?_eq_getElem hj, List.getElem?_map, List.getElem?_range hj]
    simp only [Option.map_some, hch j _ (List.getElem?_eq_getElem hj)]
  · rw [List.getElem?_eq_none (by simp; omega), List.getElem?_eq_none (by simp; omega)]

theorem insync_inv (c : Core hf mem ks items mv ma) (bs : List (Bucket Key))
    (h : bucketsKeysInsync hf items.length (items.map fun it => (it.chain : Int)) bs (items.map (keyOf mem ks))) :
    Inv hf mem ks items.length items mv ma := by
  obtain ⟨h1, h2, h3, h4, h5⟩ := h
  refine (inv_iff ..).2 ⟨rfl, c, fun j it hj => ?_⟩
  rw [insync_chns c bs h2 h3 h4 h5] at h1
  have hjl := HashMap.getElem?_lt hj
  have := congrArg (fun l => l[j]?) h1
  simp only [List.getElem?_map, hj, List.getElem?_range hjl, Option.map_some, Option.some.injEq] at this
  exact_mod_cast this

theorem capacityOk_iff (capacity rc : Nat) : capacityOk capacity rc ↔
    (capacity = 0 ∧ rc = 0) ∨ (capacity ≠ 0 ∧ ∃ p ≤ 63, rc = 2 ^ p ∧ capacity ≤ 2 ^ p) := by
  unfold capacityOk
  split
  · rename_i h; simp [h]
  · rename_i h
    rw [isPow2_iff]
    simp only [h, false_and, ne_eq, not_false_eq_true, true_and, false_or]
    constructor
    · rintro ⟨h1, h2, p, hp, rfl⟩; exact ⟨p, hp, rfl, h1⟩
    · rintro ⟨p, hp, rfl, h1⟩
      have : 2 ^ p ≤ 2 ^ 63 := Nat.pow_le_pow_right (by omega) hp
      exact ⟨h1, by omega, p, hp, rfl⟩

/-- `mapp` in terms of the invariant of C03. -/
theorem mapp_iff (m : Map) (keySize capacity : Nat) :
    mapp hf mem m keySize capacity mv ma ↔ m.keySize = keySize ∧ capacityOk capacity m.capacity ∧
      Inv hf mem keySize m.capacity m.items mv ma := by
  constructor
  · rintro ⟨kaddrs, hashes, chains, values, rc, opts, bs, ⟨r1, r2, rfl, rfl, rfl, rfl, r3, _⟩, hcore, hsync, hcap⟩
    subst r2
    rw [r3] at hcore hsync
    obtain ⟨rfl, c⟩ := (core_iff ..).1 hcore
    refine ⟨r1, hcap, ?_⟩
    rw [r3]
    exact insync_inv c bs hsync
  · rintro ⟨h1, h2, inv⟩
    have hl := inv.len
    rw [← hl] at inv
    refine ⟨_, _, _, _, m.capacity, m.items.map (keyOf mem keySize), bucketsOf hf mem keySize m.items,
      ⟨h1, rfl, rfl, rfl, rfl, rfl, hl.symm, by simp [hl], by simp [hl], by simp [hl], by simp [hl]⟩, ?_, ?_, h2⟩
    · rw [← hl]; exact (core_iff ..).2 ⟨rfl, ((inv_iff ..).1 inv).2.1⟩
    · rw [← hl]; exact inv_insync inv

end

end Verif.MapPred
