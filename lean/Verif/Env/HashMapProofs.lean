/- Proofs about the hash map: the chain-counter invariant and refinement. -/
import Verif.Env.HashMap
import Verif.Env.MemoryProofs
import Verif.Spec.HashMap
import Verif.Base

namespace Verif.HashMap
open Verif

/-! ### Power-of-two capacity -/

theorem grow_spec (capacity : Nat) (hc : capacity ≤ 2 ^ 63) : ∀ k p, k + p = 65 → p ≤ 63 →
    (∀ q < p, 2 ^ q < capacity) →
    ∃ r, grow capacity k (2 ^ p) = some (2 ^ r) ∧ r ≤ 63 ∧ capacity ≤ 2 ^ r ∧ ∀ q < r, 2 ^ q < capacity := by
  intro k
  induction k with
  | zero => intro p h1 h2; omega
  | succ k ih =>
    intro p h1 h2 h3
    unfold grow
    split
    · rename_i hlt
      have hp : p < 63 := by
        by_contra hge
        have : p = 63 := by omega
        subst this; omega
      have e : 2 ^ p * 2 % 2 ^ 64 = 2 ^ (p + 1) := by
        rw [← pow_succ]
        exact Nat.mod_eq_of_lt (Nat.pow_lt_pow_right (by omega) (by omega))
      rw [e]
      refine ih (p + 1) (by omega) (by omega) ?_
      intro q hq
      rcases Nat.lt_or_eq_of_le (Nat.lt_succ_iff.1 hq) with h | h
      · exact h3 q h
      · subst h; exact hlt
    · rename_i hge
      exact ⟨p, rfl, h2, by omega, h3⟩

theorem getRealCapacity_spec (capacity : Nat) (hc : capacity ≤ 2 ^ 63) (h0 : capacity ≠ 0) :
    ∃ r, getRealCapacity capacity = some (2 ^ r) ∧ r ≤ 63 ∧ capacity ≤ 2 ^ r ∧
      ∀ q < r, 2 ^ q < capacity := by
  unfold getRealCapacity
  rw [if_neg h0]
  exact grow_spec capacity hc 65 0 (by omega) (by omega) (by intro q hq; omega)

/-- Slot reached from hash `h` after `e` steps. -/
def slot (cap h e : Nat) : Nat := (h % cap + e) % cap

/-- Number of steps from the starting slot of hash `h` to slot `j`. -/
def dist (cap h j : Nat) : Nat := (j + cap - h % cap) % cap

theorem loop_eq (p h i : Nat) (hp : p ≤ 63) (hi : i < 2 ^ p) : loop h i (2 ^ p) = slot (2 ^ p) h i := by
  unfold loop slot
  simp only [Nat.and_two_pow_sub_one_eq_mod]
  have hh : h % 2 ^ p < 2 ^ p := Nat.mod_lt _ (by positivity)
  have : 2 ^ p ≤ 2 ^ 63 := Nat.pow_le_pow_right (by omega) hp
  rw [Nat.mod_eq_of_lt (a := h % 2 ^ p + i) (b := 2 ^ 64) (by omega)]

theorem slot_lt {cap : Nat} (hc : 0 < cap) (h e : Nat) : slot cap h e < cap := Nat.mod_lt _ hc

theorem dist_lt {cap : Nat} (hc : 0 < cap) (h j : Nat) : dist cap h j < cap := Nat.mod_lt _ hc

theorem mod_cases {a n : Nat} (h : a < 2 * n) : a % n = if a < n then a else a - n := by
  split
  · exact Nat.mod_eq_of_lt (by omega)
  · rw [Nat.mod_eq_sub_mod (by omega)]; exact Nat.mod_eq_of_lt (by omega)

theorem slot_dist {cap h j : Nat} (hj : j < cap) : slot cap h (dist cap h j) = j := by
  have hm := Nat.mod_lt h (by omega : 0 < cap)
  unfold slot dist
  generalize h % cap = s at *
  rw [mod_cases (a := j + cap - s) (by omega)]
  split
  · rw [mod_cases (by omega)]; split <;> omega
  · rw [mod_cases (by omega)]; split <;> omega

theorem dist_slot {cap h e : Nat} (he : e < cap) : dist cap h (slot cap h e) = e := by
  have hm := Nat.mod_lt h (by omega : 0 < cap)
  unfold slot dist
  generalize h % cap = s at *
  rw [mod_cases (a := s + e) (by omega)]
  split
  · rw [mod_cases (by omega)]; split <;> omega
  · rw [mod_cases (by omega)]; split <;> omega

theorem dist_inj {cap h i j : Nat} (hi : i < cap) (hj : j < cap) (he : dist cap h i = dist cap h j) :
    i = j := by
  rw [← slot_dist (h := h) hi, ← slot_dist (h := h) hj, he]

/-! ### Counting -/

theorem countP_update (f g : Nat → Bool) (s n : Nat) (hs : s < n) (h : ∀ j < n, j ≠ s → f j = g j) :
    (List.range n).countP g + (f s).toNat = (List.range n).countP f + (g s).toNat := by
  induction n with
  | zero => omega
  | succ n ih =>
    rw [List.range_succ, List.countP_append, List.countP_append]
    by_cases hn : s = n
    · subst hn
      have : (List.range s).countP g = (List.range s).countP f := by
        apply List.countP_congr
        intro j hj
        rw [h j (by have := List.mem_range.1 hj; omega) (by have := List.mem_range.1 hj; omega)]
      rw [this]
      cases hf : f s <;> cases hg : g s <;> simp [hf, hg]
    · have := ih (by omega) (fun j hj => h j (by omega))
      have e := h n (by omega) (fun h => hn h.symm)
      have : List.countP f [n] = List.countP g [n] := by simp [List.countP_cons, e]
      omega

theorem countP_pos_of {f : Nat → Bool} {s n : Nat} (hs : s < n) (h : f s = true) :
    0 < (List.range n).countP f :=
  List.countP_pos_iff.2 ⟨s, List.mem_range.2 hs, h⟩

/-! ### Invariant -/

/-- Whether the key stored in slot `j'` (if any) was placed after stepping over slot `j`. -/
def passes (cap : Nat) (items : List Item) (j : Nat) (j' : Nat) : Bool :=
  match items[j']? with
  | some it => decide (it.keyAddr ≠ 0) && decide (dist cap it.keyHash j < dist cap it.keyHash j')
  | none => false

structure Inv (hf : List UInt8 → Nat) (mem : Mem) (ks cap : Nat) (items : List Item)
    (values addrs : GMap (List UInt8) Nat) : Prop where
  len : items.length = cap
  hash : ∀ (j : Nat) (it : Item), items[j]? = some it → it.keyAddr ≠ 0 → it.keyHash = hf (bytesAt mem it.keyAddr ks)
  inj : ∀ (j j' : Nat) (it it' : Item), items[j]? = some it → items[j']? = some it' → it.keyAddr ≠ 0 → it'.keyAddr ≠ 0 →
    bytesAt mem it.keyAddr ks = bytesAt mem it'.keyAddr ks → j = j'
  chain : ∀ (j : Nat) (it : Item), items[j]? = some it → it.chain = (List.range cap).countP (passes cap items j)
  vals : ∀ k v, values.get k = some v ↔
    ∃ (j : Nat) (it : Item), items[j]? = some it ∧ it.keyAddr ≠ 0 ∧ bytesAt mem it.keyAddr ks = k ∧ it.value = v
  adrs : ∀ k a, addrs.get k = some a ↔
    ∃ (j : Nat) (it : Item), items[j]? = some it ∧ it.keyAddr ≠ 0 ∧ bytesAt mem it.keyAddr ks = k ∧ it.keyAddr = a
  dv : GMap.Distinct values
  da : GMap.Distinct addrs

/-! ### Walks -/

theorem getElem?_set_mapIdx (items : List Item) (f g : Nat → Item → Item) (s : Nat) (it : Item)
    (hit : items[s]? = some it) (hne : ∀ (j : Nat) (it' : Item), items[j]? = some it' → j ≠ s → f j it' = g j it') :
    (items.mapIdx f).set s (g s it) = items.mapIdx g := by
  apply List.ext_getElem?
  intro j
  rw [List.getElem?_set]
  simp only [List.length_mapIdx, List.getElem?_mapIdx]
  have hs : s < items.length := by
    by_contra h; rw [List.getElem?_eq_none (by omega)] at hit; cases hit
  by_cases h : s = j
  · subst h
    have h2 := hit
    rw [List.getElem?_eq_getElem hs] at h2; cases h2; simp [hs]
  · rw [if_neg h]
    cases hj : items[j]? with
    | none => rfl
    | some it' => simp [hne j it' hj (Ne.symm h)]

/-- Effect of `map_set` on the item at distance `d`: `e` is the distance of the free slot. -/
def setItem (kp kh v e d : Nat) (it : Item) : Item :=
  if d < e then { it with chain := (it.chain + 1) % 2 ^ 64 }
  else if d = e then { it with keyAddr := kp, keyHash := kh, value := v } else it

theorem setLoop_spec (p kp kh v : Nat) (hp : p ≤ 63) (items : List Item) (hlen : items.length = 2 ^ p)
    (e : Nat) (he : e < 2 ^ p)
    (hocc : ∀ e' < e, ∀ it : Item, items[slot (2 ^ p) kh e']? = some it → it.keyAddr ≠ 0)
    (hfree : ∀ it : Item, items[slot (2 ^ p) kh e]? = some it → it.keyAddr = 0) :
    ∀ n i, n + i = e →
    setLoop (2 ^ p) kp kh v (2 ^ p - i) i
      (items.mapIdx fun j it => if dist (2 ^ p) kh j < i then { it with chain := (it.chain + 1) % 2 ^ 64 } else it) =
      some (items.mapIdx fun j it => setItem kp kh v e (dist (2 ^ p) kh j) it) := by
  intro n
  have hc : 0 < 2 ^ p := by positivity
  induction n with
  | zero =>
    intro i hi
    have hi : i = e := by omega
    subst hi
    obtain ⟨k, hk⟩ : ∃ k, 2 ^ p - i = k + 1 := ⟨2 ^ p - i - 1, by omega⟩
    have hs := slot_lt hc kh i
    obtain ⟨it, hit⟩ : ∃ it, items[slot (2 ^ p) kh i]? = some it :=
      ⟨_, List.getElem?_eq_getElem (hlen ▸ hs)⟩
    rw [hk, setLoop, loop_eq p kh i hp he]
    simp only [List.getElem?_mapIdx, hit, Option.map_some, dist_slot he, Nat.lt_irrefl, if_false,
      Option.bind_eq_bind, Option.bind_some, hfree it hit, if_true]
    congr 1
    have := getElem?_set_mapIdx items
      (fun j it => if dist (2 ^ p) kh j < i then { it with chain := (it.chain + 1) % 2 ^ 64 } else it)
      (fun j it => setItem kp kh v i (dist (2 ^ p) kh j) it) _ it hit (by
        intro j it' hj hne
        have hj' : j < 2 ^ p := by
          by_contra h; rw [List.getElem?_eq_none (by omega)] at hj; cases hj
        have : dist (2 ^ p) kh j ≠ i := fun h => hne (by rw [← h, slot_dist hj'])
        simp [setItem, this])
    rw [← this]
    simp [setItem, dist_slot he]
  | succ n ih =>
    intro i hi
    have hie : i < e := by omega
    obtain ⟨k, hk⟩ : ∃ k, 2 ^ p - i = k + 1 := ⟨2 ^ p - i - 1, by omega⟩
    have hs := slot_lt hc kh i
    obtain ⟨it, hit⟩ : ∃ it, items[slot (2 ^ p) kh i]? = some it :=
      ⟨_, List.getElem?_eq_getElem (hlen ▸ hs)⟩
    have hit' := hocc i hie it hit
    rw [hk, setLoop, loop_eq p kh i hp (by omega)]
    have hdi : dist (2 ^ p) kh (slot (2 ^ p) kh i) = i := dist_slot (by omega)
    simp only [List.getElem?_mapIdx, hit, Option.map_some, hdi, Nat.lt_irrefl, if_false,
      Option.bind_eq_bind, Option.bind_some, hit']
    have := getElem?_set_mapIdx items
      (fun j it => if dist (2 ^ p) kh j < i then { it with chain := (it.chain + 1) % 2 ^ 64 } else it)
      (fun j it => if dist (2 ^ p) kh j < i + 1 then { it with chain := (it.chain + 1) % 2 ^ 64 } else it)
      _ it hit (by
        intro j it' hj hne
        have hj' : j < 2 ^ p := by
          by_contra h; rw [List.getElem?_eq_none (by omega)] at hj; cases hj
        have : dist (2 ^ p) kh j ≠ i := fun h => hne (by rw [← h, slot_dist hj'])
        by_cases h : dist (2 ^ p) kh j < i
        · simp [h, Nat.lt_succ_of_lt h]
        · simp [h, show ¬ dist (2 ^ p) kh j < i + 1 by omega])
    simp only [hdi, Nat.lt_succ_self, if_true] at this
    rw [this, show k = 2 ^ p - (i + 1) by omega]
    exact ih (i + 1) (by omega)

/-- Effect of `map_remove` on the item at distance `d`: `e` is the distance of the key. -/
def removeItem (e d : Nat) (it : Item) : Item :=
  if d < e then { it with chain := (it.chain + (2 ^ 64 - 1)) % 2 ^ 64 }
  else if d = e then { it with keyAddr := 0 } else it

theorem removeLoop_spec (mem : Mem) (ks p kp kh : Nat) (hp : p ≤ 63) (items : List Item)
    (hlen : items.length = 2 ^ p) (e : Nat) (he : e < 2 ^ p)
    (hno : ∀ e' < e, ∀ it : Item, items[slot (2 ^ p) kh e']? = some it → it.keyAddr ≠ 0 →
      bytesAt mem it.keyAddr ks ≠ bytesAt mem kp ks)
    (hyes : ∀ it : Item, items[slot (2 ^ p) kh e]? = some it → it.keyAddr ≠ 0 ∧ it.keyHash = kh ∧
      bytesAt mem it.keyAddr ks = bytesAt mem kp ks) :
    ∀ n i, n + i = e →
    removeLoop mem ks (2 ^ p) kp kh (2 ^ p - i) i
      (items.mapIdx fun j it => if dist (2 ^ p) kh j < i then
        { it with chain := (it.chain + (2 ^ 64 - 1)) % 2 ^ 64 } else it) =
      some (items.mapIdx fun j it => removeItem e (dist (2 ^ p) kh j) it) := by
  intro n
  have hc : 0 < 2 ^ p := by positivity
  induction n with
  | zero =>
    intro i hi
    have hi : i = e := by omega
    subst hi
    obtain ⟨k, hk⟩ : ∃ k, 2 ^ p - i = k + 1 := ⟨2 ^ p - i - 1, by omega⟩
    have hs := slot_lt hc kh i
    obtain ⟨it, hit⟩ : ∃ it, items[slot (2 ^ p) kh i]? = some it :=
      ⟨_, List.getElem?_eq_getElem (hlen ▸ hs)⟩
    obtain ⟨y1, y2, y3⟩ := hyes it hit
    rw [hk, removeLoop, loop_eq p kh i hp he]
    simp only [List.getElem?_mapIdx, hit, Option.map_some, dist_slot he, Nat.lt_irrefl, if_false,
      Option.bind_eq_bind, Option.bind_some]
    rw [if_pos ⟨y1, y2, (Memory.memEq_iff ..).2 y3⟩]
    congr 1
    have := getElem?_set_mapIdx items
      (fun j it => if dist (2 ^ p) kh j < i then
        { it with chain := (it.chain + (2 ^ 64 - 1)) % 2 ^ 64 } else it)
      (fun j it => removeItem i (dist (2 ^ p) kh j) it) _ it hit (by
        intro j it' hj hne
        have hj' : j < 2 ^ p := by
          by_contra h; rw [List.getElem?_eq_none (by omega)] at hj; cases hj
        have : dist (2 ^ p) kh j ≠ i := fun h => hne (by rw [← h, slot_dist hj'])
        simp [removeItem, this])
    rw [← this]
    simp [removeItem, dist_slot he]
  | succ n ih =>
    intro i hi
    have hie : i < e := by omega
    obtain ⟨k, hk⟩ : ∃ k, 2 ^ p - i = k + 1 := ⟨2 ^ p - i - 1, by omega⟩
    have hs := slot_lt hc kh i
    obtain ⟨it, hit⟩ : ∃ it, items[slot (2 ^ p) kh i]? = some it :=
      ⟨_, List.getElem?_eq_getElem (hlen ▸ hs)⟩
    have hit' := hno i hie it hit
    rw [hk, removeLoop, loop_eq p kh i hp (by omega)]
    have hdi : dist (2 ^ p) kh (slot (2 ^ p) kh i) = i := dist_slot (by omega)
    simp only [List.getElem?_mapIdx, hit, Option.map_some, hdi, Nat.lt_irrefl, if_false,
      Option.bind_eq_bind, Option.bind_some]
    rw [if_neg (by rintro ⟨q1, _, q3⟩; exact hit' q1 ((Memory.memEq_iff ..).1 q3))]
    have := getElem?_set_mapIdx items
      (fun j it => if dist (2 ^ p) kh j < i then
        { it with chain := (it.chain + (2 ^ 64 - 1)) % 2 ^ 64 } else it)
      (fun j it => if dist (2 ^ p) kh j < i + 1 then
        { it with chain := (it.chain + (2 ^ 64 - 1)) % 2 ^ 64 } else it)
      _ it hit (by
        intro j it' hj hne
        have hj' : j < 2 ^ p := by
          by_contra h; rw [List.getElem?_eq_none (by omega)] at hj; cases hj
        have : dist (2 ^ p) kh j ≠ i := fun h => hne (by rw [← h, slot_dist hj'])
        by_cases h : dist (2 ^ p) kh j < i
        · simp [h, Nat.lt_succ_of_lt h]
        · simp [h, show ¬ dist (2 ^ p) kh j < i + 1 by omega])
    simp only [hdi, Nat.lt_succ_self, if_true] at this
    rw [this, show k = 2 ^ p - (i + 1) by omega]
    exact ih (i + 1) (by omega)

theorem getLoop_absent (mem : Mem) (ks p kp kh : Nat) (hp : p ≤ 63) (items : List Item)
    (hlen : items.length = 2 ^ p)
    (hno : ∀ (j : Nat) (it : Item), items[j]? = some it → it.keyAddr ≠ 0 → bytesAt mem it.keyAddr ks ≠ bytesAt mem kp ks) :
    ∀ k i, k + i = 2 ^ p → getLoop mem ks (2 ^ p) kp kh items k i = some none := by
  intro k
  have hc : 0 < 2 ^ p := by positivity
  induction k with
  | zero => intro i _; rfl
  | succ k ih =>
    intro i hi
    have hs := slot_lt hc kh i
    obtain ⟨it, hit⟩ : ∃ it, items[slot (2 ^ p) kh i]? = some it :=
      ⟨_, List.getElem?_eq_getElem (hlen ▸ hs)⟩
    rw [getLoop, loop_eq p kh i hp (by omega), hit]
    simp only [Option.bind_eq_bind, Option.bind_some]
    split
    · rename_i h
      rw [if_neg (fun hh => hno _ it hit h.1 ((Memory.memEq_iff ..).1 hh)), ih (i + 1) (by omega)]
    · split
      · rfl
      · exact ih (i + 1) (by omega)

theorem getLoop_present (mem : Mem) (ks p kp kh : Nat) (hp : p ≤ 63) (items : List Item)
    (hlen : items.length = 2 ^ p) (e v : Nat) (he : e < 2 ^ p)
    (hno : ∀ e' < e, ∀ it : Item, items[slot (2 ^ p) kh e']? = some it →
      (it.keyAddr ≠ 0 → bytesAt mem it.keyAddr ks ≠ bytesAt mem kp ks) ∧ it.chain ≠ 0)
    (hyes : ∀ it : Item, items[slot (2 ^ p) kh e]? = some it → it.keyAddr ≠ 0 ∧ it.keyHash = kh ∧
      bytesAt mem it.keyAddr ks = bytesAt mem kp ks ∧ it.value = v) :
    ∀ n i, n + i = e → getLoop mem ks (2 ^ p) kp kh items (2 ^ p - i) i = some (some v) := by
  intro n
  have hc : 0 < 2 ^ p := by positivity
  induction n with
  | zero =>
    intro i hi
    have hi : i = e := by omega
    subst hi
    obtain ⟨k, hk⟩ : ∃ k, 2 ^ p - i = k + 1 := ⟨2 ^ p - i - 1, by omega⟩
    obtain ⟨it, hit⟩ : ∃ it, items[slot (2 ^ p) kh i]? = some it :=
      ⟨_, List.getElem?_eq_getElem (hlen ▸ slot_lt hc kh i)⟩
    obtain ⟨y1, y2, y3, y4⟩ := hyes it hit
    rw [hk, getLoop, loop_eq p kh i hp he, hit]
    simp only [Option.bind_eq_bind, Option.bind_some]
    rw [if_pos ⟨y1, y2⟩, if_pos ((Memory.memEq_iff ..).2 y3), y4]
  | succ n ih =>
    intro i hi
    obtain ⟨k, hk⟩ : ∃ k, 2 ^ p - i = k + 1 := ⟨2 ^ p - i - 1, by omega⟩
    obtain ⟨it, hit⟩ : ∃ it, items[slot (2 ^ p) kh i]? = some it :=
      ⟨_, List.getElem?_eq_getElem (hlen ▸ slot_lt hc kh i)⟩
    obtain ⟨y1, y2⟩ := hno i (by omega) it hit
    rw [hk, getLoop, loop_eq p kh i hp (by omega), hit]
    simp only [Option.bind_eq_bind, Option.bind_some]
    have hrec := ih (i + 1) (by omega)
    rw [show 2 ^ p - (i + 1) = k by omega] at hrec
    split
    · rename_i h
      rw [if_neg (fun hh => y1 h.1 ((Memory.memEq_iff ..).1 hh)), hrec]
    · exact hrec

/-! ### Preservation -/

section
variable {hf : List UInt8 → Nat} {mem : Mem} {ks : Nat} {items : List Item}
  {values addrs : GMap (List UInt8) Nat}

theorem getElem?_lt {l : List Item} {j : Nat} {it : Item} (h : l[j]? = some it) : j < l.length := by
  by_contra hh; rw [List.getElem?_eq_none (by omega)] at h; cases h

theorem exists_free {cap : Nat} (inv : Inv hf mem ks cap items values addrs)
    (hlen : values.length < cap) : ∃ (j : Nat) (it : Item), items[j]? = some it ∧ it.keyAddr = 0 := by
  by_contra hno
  push Not at hno
  let key : Nat → List UInt8 := fun j => match items[j]? with
    | some it => bytesAt mem it.keyAddr ks
    | none => []
  have hat : ∀ j < cap, ∃ it, items[j]? = some it ∧ it.keyAddr ≠ 0 := by
    intro j hj
    obtain ⟨it, hit⟩ : ∃ it, items[j]? = some it := ⟨_, List.getElem?_eq_getElem (inv.len ▸ hj)⟩
    exact ⟨it, hit, hno j it hit⟩
  have hnd : ((List.range cap).map key).Nodup := by
    apply List.Nodup.map_on _ List.nodup_range
    intro x hx y hy hxy
    obtain ⟨a, ha, ha'⟩ := hat x (List.mem_range.1 hx)
    obtain ⟨b, hb, hb'⟩ := hat y (List.mem_range.1 hy)
    simp only [key, ha, hb] at hxy
    exact inv.inj x y a b ha hb ha' hb' hxy
  have hsub : ((List.range cap).map key) ⊆ values.map Prod.fst := by
    intro k hk
    obtain ⟨j, hj, rfl⟩ := List.mem_map.1 hk
    obtain ⟨a, ha, ha'⟩ := hat j (List.mem_range.1 hj)
    have := (inv.vals (key j) a.value).2 ⟨j, a, ha, ha', by simp [key, ha], rfl⟩
    exact List.mem_map.2 ⟨_, GMap.get_some_mem this, rfl⟩
  have := (List.subperm_of_subset hnd hsub).length_le
  simp at this
  omega

theorem exists_first_free {cap : Nat} (hc : 0 < cap) (inv : Inv hf mem ks cap items values addrs)
    (hlen : values.length < cap) (kh : Nat) :
    ∃ e < cap, (∀ it : Item, items[slot cap kh e]? = some it → it.keyAddr = 0) ∧
      ∀ e' < e, ∀ it : Item, items[slot cap kh e']? = some it → it.keyAddr ≠ 0 := by
  classical
  obtain ⟨j, it, hj, h0⟩ := exists_free inv hlen
  have hjc : j < cap := inv.len ▸ getElem?_lt hj
  have hex : ∃ e, e < cap ∧ ∀ it : Item, items[slot cap kh e]? = some it → it.keyAddr = 0 := by
    refine ⟨dist cap kh j, dist_lt hc kh j, ?_⟩
    rw [slot_dist hjc, hj]
    rintro it' h; cases h; exact h0
  refine ⟨Nat.find hex, (Nat.find_spec hex).1, (Nat.find_spec hex).2, ?_⟩
  intro e' he' it' hit' hz
  refine Nat.find_min hex he' ⟨?_, ?_⟩
  · have := (Nat.find_spec hex).1; omega
  · intro it'' h; rw [hit'] at h; cases h; exact hz

/-- One key more or less at slot `s` changes the chain counts by one where it passes. -/
theorem chain_update {cap : Nat} {items items' : List Item} {s : Nat} (hs : s < cap)
    (hsame : ∀ j < cap, j ≠ s → ∀ i, passes cap items i j = passes cap items' i j) (i : Nat) :
    (List.range cap).countP (passes cap items' i) + (passes cap items i s).toNat =
      (List.range cap).countP (passes cap items i) + (passes cap items' i s).toNat :=
  countP_update _ _ s cap hs (fun j hj hne => hsame j hj hne i)

theorem inv_set {p : Nat} (hp : p ≤ 63) (inv : Inv hf mem ks (2 ^ p) items values addrs)
    {kp v e : Nat} (hkp : kp ≠ 0) (he : e < 2 ^ p)
    (hfree : ∀ it : Item, items[slot (2 ^ p) (hf (bytesAt mem kp ks)) e]? = some it → it.keyAddr = 0)
    (hnew : values.get (bytesAt mem kp ks) = none) :
    Inv hf mem ks (2 ^ p)
      (items.mapIdx fun j it => setItem kp (hf (bytesAt mem kp ks)) v e
        (dist (2 ^ p) (hf (bytesAt mem kp ks)) j) it)
      (values.set (bytesAt mem kp ks) v) (addrs.set (bytesAt mem kp ks) kp) := by
  have hc : 0 < 2 ^ p := by positivity
  have hpow : 2 ^ p ≤ 2 ^ 63 := Nat.pow_le_pow_right (by omega) hp
  set key := bytesAt mem kp ks with hkey
  set kh := hf key with hkh
  set s := slot (2 ^ p) kh e with hs
  have hsl : s < 2 ^ p := slot_lt hc kh e
  have hds : dist (2 ^ p) kh s = e := dist_slot he
  obtain ⟨it0, hit0⟩ : ∃ it, items[s]? = some it := ⟨_, List.getElem?_eq_getElem (inv.len ▸ hsl)⟩
  have h00 := hfree it0 hit0
  have hdne : ∀ j < 2 ^ p, j ≠ s → dist (2 ^ p) kh j ≠ e := by
    intro j hj hne h
    exact hne (dist_inj hj hsl (by rw [h, hds]))
  have habs : ∀ (j : Nat) (it : Item), items[j]? = some it → it.keyAddr ≠ 0 →
      bytesAt mem it.keyAddr ks ≠ key := by
    intro j it hj h0 hk
    have := (inv.vals key it.value).2 ⟨j, it, hj, h0, hk, rfl⟩
    rw [hnew] at this; cases this
  set items' := items.mapIdx fun j it => setItem kp kh v e (dist (2 ^ p) kh j) it with hitems'
  -- reading the new table
  have hread_s : items'[s]? = some { it0 with keyAddr := kp, keyHash := kh, value := v } := by
    simp [hitems', List.getElem?_mapIdx, hit0, setItem, hds]
  have hread_ne : ∀ (j : Nat) (it : Item), items[j]? = some it → j ≠ s →
      items'[j]? = some (if dist (2 ^ p) kh j < e then { it with chain := (it.chain + 1) % 2 ^ 64 } else it) := by
    intro j it hj hne
    have := hdne j (inv.len ▸ getElem?_lt hj) hne
    simp [hitems', List.getElem?_mapIdx, hj, setItem, this]
  have hback : ∀ (j : Nat) (it' : Item), items'[j]? = some it' →
      (j = s ∧ it' = { it0 with keyAddr := kp, keyHash := kh, value := v }) ∨
      (j ≠ s ∧ ∃ it, items[j]? = some it ∧
        it' = if dist (2 ^ p) kh j < e then { it with chain := (it.chain + 1) % 2 ^ 64 } else it) := by
    intro j it' hj
    by_cases hjs : j = s
    · subst hjs; rw [hread_s] at hj; cases hj; exact .inl ⟨rfl, rfl⟩
    · obtain ⟨it, hit⟩ : ∃ it, items[j]? = some it := by
        have := getElem?_lt hj
        rw [hitems', List.length_mapIdx] at this
        exact ⟨_, List.getElem?_eq_getElem this⟩
      rw [hread_ne j it hit hjs] at hj; cases hj
      exact .inr ⟨hjs, it, hit, rfl⟩
  have hfields : ∀ (it : Item) (b : Prop) [Decidable b],
      (if b then { it with chain := (it.chain + 1) % 2 ^ 64 } else it).keyAddr = it.keyAddr ∧
      (if b then { it with chain := (it.chain + 1) % 2 ^ 64 } else it).keyHash = it.keyHash ∧
      (if b then { it with chain := (it.chain + 1) % 2 ^ 64 } else it).value = it.value := by
    intro it b _; split <;> simp
  -- occupied slots of the new table
  have hocc : ∀ (j : Nat) (it' : Item), items'[j]? = some it' → it'.keyAddr ≠ 0 →
      (j = s ∧ it'.keyAddr = kp ∧ it'.keyHash = kh ∧ it'.value = v) ∨
      (j ≠ s ∧ ∃ it, items[j]? = some it ∧ it.keyAddr ≠ 0 ∧ it'.keyAddr = it.keyAddr ∧
        it'.keyHash = it.keyHash ∧ it'.value = it.value) := by
    intro j it' hj h0
    rcases hback j it' hj with ⟨h1, rfl⟩ | ⟨h1, it, hit, rfl⟩
    · exact .inl ⟨h1, rfl, rfl, rfl⟩
    · obtain ⟨f1, f2, f3⟩ := hfields it (dist (2 ^ p) kh j < e)
      rw [f1] at h0
      exact .inr ⟨h1, it, hit, h0, f1, f2, f3⟩
  refine ⟨by rw [hitems', List.length_mapIdx, inv.len], ?_, ?_, ?_, ?_, ?_,
    GMap.distinct_set inv.dv _ _, GMap.distinct_set inv.da _ _⟩
  · intro j it' hj h0
    rcases hocc j it' hj h0 with ⟨_, h1, h2, _⟩ | ⟨_, it, hit, h1, h2, h3, _⟩
    · rw [h2, h1]
    · rw [h3, h2, inv.hash j it hit h1]
  · intro j j' it it' hj hj' h0 h0' hk
    rcases hocc j it hj h0 with ⟨a1, a2, _⟩ | ⟨a1, b, a2, a3, a4, _⟩ <;>
    rcases hocc j' it' hj' h0' with ⟨c1, c2, _⟩ | ⟨c1, d, c2, c3, c4, _⟩
    · rw [a1, c1]
    · rw [a2, c4] at hk; exact absurd hk.symm (habs _ _ c2 c3)
    · rw [a4, c2] at hk; exact absurd hk (habs _ _ a2 a3)
    · rw [a4, c4] at hk; exact inv.inj _ _ _ _ a2 c2 a3 c3 hk
  · -- chains
    have hps : ∀ i, passes (2 ^ p) items i s = false := by
      intro i; simp [passes, hit0, h00]
    have hps' : ∀ i, passes (2 ^ p) items' i s = decide (dist (2 ^ p) kh i < e) := by
      intro i; simp [passes, hread_s, hkp, hds]
    have hsame : ∀ j < 2 ^ p, j ≠ s → ∀ i, passes (2 ^ p) items i j = passes (2 ^ p) items' i j := by
      intro j hj hne i
      obtain ⟨it, hit⟩ : ∃ it, items[j]? = some it := ⟨_, List.getElem?_eq_getElem (inv.len ▸ hj)⟩
      obtain ⟨f1, f2, f3⟩ := hfields it (dist (2 ^ p) kh j < e)
      simp only [passes, hread_ne j it hit hne, hit, f1, f2]
    intro j it' hj
    have hcu := chain_update (items := items) (items' := items') hsl hsame j
    rw [hps, hps'] at hcu
    simp only [Bool.toNat_false, Nat.add_zero] at hcu
    rw [hcu]
    rcases hback j it' hj with ⟨rfl, rfl⟩ | ⟨h1, it, hit, rfl⟩
    · rw [hds]; simp [inv.chain _ it0 hit0]
    · have hle : it.chain ≤ 2 ^ p := by
        rw [inv.chain _ it hit]
        exact le_trans List.countP_le_length (by simp)
      rw [← inv.chain _ it hit]
      by_cases hd : dist (2 ^ p) kh j < e
      · simp only [hd, if_true, decide_true, Bool.toNat_true]
        exact Nat.mod_eq_of_lt (by omega)
      · simp [hd]
  · intro k w
    rw [GMap.get_set]
    by_cases hk : key = k
    · rw [if_pos hk]
      constructor
      · rintro h; cases h
        exact ⟨s, _, hread_s, hkp, hk, rfl⟩
      · rintro ⟨j, it', hj, h0, h1, h2⟩
        rcases hocc j it' hj h0 with ⟨_, _, _, q⟩ | ⟨_, it, hit, q1, q2, q3, q4⟩
        · rw [← q, h2]
        · rw [q2] at h1; exact absurd (h1.trans hk.symm) (habs _ _ hit q1)
    · rw [if_neg hk, inv.vals]
      constructor
      · rintro ⟨j, it, hj, h0, h1, h2⟩
        have hne : j ≠ s := by rintro rfl; rw [hit0] at hj; cases hj; exact h0 h00
        obtain ⟨f1, f2, f3⟩ := hfields it (dist (2 ^ p) kh j < e)
        exact ⟨j, _, hread_ne j it hj hne, by rw [f1]; exact h0, by rw [f1]; exact h1, by rw [f3]; exact h2⟩
      · rintro ⟨j, it', hj, h0, h1, h2⟩
        rcases hocc j it' hj h0 with ⟨_, q, _⟩ | ⟨_, it, hit, q1, q2, q3, q4⟩
        · rw [q] at h1; exact absurd h1 hk
        · exact ⟨j, it, hit, q1, q2 ▸ h1, q4 ▸ h2⟩
  · intro k w
    rw [GMap.get_set]
    by_cases hk : key = k
    · rw [if_pos hk]
      constructor
      · rintro h; cases h
        exact ⟨s, _, hread_s, hkp, hk, rfl⟩
      · rintro ⟨j, it', hj, h0, h1, h2⟩
        rcases hocc j it' hj h0 with ⟨_, q, _, _⟩ | ⟨_, it, hit, q1, q2, q3, q4⟩
        · rw [← q, h2]
        · rw [q2] at h1; exact absurd (h1.trans hk.symm) (habs _ _ hit q1)
    · rw [if_neg hk, inv.adrs]
      constructor
      · rintro ⟨j, it, hj, h0, h1, h2⟩
        have hne : j ≠ s := by rintro rfl; rw [hit0] at hj; cases hj; exact h0 h00
        obtain ⟨f1, f2, f3⟩ := hfields it (dist (2 ^ p) kh j < e)
        exact ⟨j, _, hread_ne j it hj hne, by rw [f1]; exact h0, by rw [f1]; exact h1, by rw [f1]; exact h2⟩
      · rintro ⟨j, it', hj, h0, h1, h2⟩
        rcases hocc j it' hj h0 with ⟨_, q, _⟩ | ⟨_, it, hit, q1, q2, q3, q4⟩
        · rw [q] at h1; exact absurd h1 hk
        · exact ⟨j, it, hit, q1, q2 ▸ h1, q2 ▸ h2⟩

theorem inv_remove {p : Nat} (hp : p ≤ 63) (inv : Inv hf mem ks (2 ^ p) items values addrs)
    {key : List UInt8} {s : Nat} {it0 : Item} (hit0 : items[s]? = some it0) (h00 : it0.keyAddr ≠ 0)
    (hkey : bytesAt mem it0.keyAddr ks = key) :
    Inv hf mem ks (2 ^ p)
      (items.mapIdx fun j it => removeItem (dist (2 ^ p) (hf key) s) (dist (2 ^ p) (hf key) j) it)
      (values.remove key) (addrs.remove key) := by
  have hc : 0 < 2 ^ p := by positivity
  have hpow : 2 ^ p ≤ 2 ^ 63 := Nat.pow_le_pow_right (by omega) hp
  set kh := hf key with hkh
  set e := dist (2 ^ p) kh s with hds
  have hsl : s < 2 ^ p := inv.len ▸ getElem?_lt hit0
  have hh0 : it0.keyHash = kh := by rw [inv.hash s it0 hit0 h00, hkey]
  have hdne : ∀ j < 2 ^ p, j ≠ s → dist (2 ^ p) kh j ≠ e := by
    intro j hj hne h
    exact hne (dist_inj hj hsl h)
  have habs : ∀ (j : Nat) (it : Item), items[j]? = some it → it.keyAddr ≠ 0 → j ≠ s →
      bytesAt mem it.keyAddr ks ≠ key := by
    intro j it hj h0 hne hk
    exact hne (inv.inj j s it it0 hj hit0 h0 h00 (hk.trans hkey.symm))
  set items' := items.mapIdx fun j it => removeItem e (dist (2 ^ p) kh j) it with hitems'
  have hread_s : items'[s]? = some { it0 with keyAddr := 0 } := by
    simp [hitems', List.getElem?_mapIdx, hit0, removeItem, ← hds]
  have hread_ne : ∀ (j : Nat) (it : Item), items[j]? = some it → j ≠ s →
      items'[j]? = some (if dist (2 ^ p) kh j < e then
        { it with chain := (it.chain + (2 ^ 64 - 1)) % 2 ^ 64 } else it) := by
    intro j it hj hne
    have := hdne j (inv.len ▸ getElem?_lt hj) hne
    simp [hitems', List.getElem?_mapIdx, hj, removeItem, this]
  have hback : ∀ (j : Nat) (it' : Item), items'[j]? = some it' →
      (j = s ∧ it' = { it0 with keyAddr := 0 }) ∨
      (j ≠ s ∧ ∃ it, items[j]? = some it ∧
        it' = if dist (2 ^ p) kh j < e then { it with chain := (it.chain + (2 ^ 64 - 1)) % 2 ^ 64 } else it) := by
    intro j it' hj
    by_cases hjs : j = s
    · subst hjs; rw [hread_s] at hj; cases hj; exact .inl ⟨rfl, rfl⟩
    · obtain ⟨it, hit⟩ : ∃ it, items[j]? = some it := by
        have := getElem?_lt hj
        rw [hitems', List.length_mapIdx] at this
        exact ⟨_, List.getElem?_eq_getElem this⟩
      rw [hread_ne j it hit hjs] at hj; cases hj
      exact .inr ⟨hjs, it, hit, rfl⟩
  have hfields : ∀ (it : Item) (b : Prop) [Decidable b],
      (if b then { it with chain := (it.chain + (2 ^ 64 - 1)) % 2 ^ 64 } else it).keyAddr = it.keyAddr ∧
      (if b then { it with chain := (it.chain + (2 ^ 64 - 1)) % 2 ^ 64 } else it).keyHash = it.keyHash ∧
      (if b then { it with chain := (it.chain + (2 ^ 64 - 1)) % 2 ^ 64 } else it).value = it.value := by
    intro it b _; split <;> simp
  have hocc : ∀ (j : Nat) (it' : Item), items'[j]? = some it' → it'.keyAddr ≠ 0 →
      j ≠ s ∧ ∃ it, items[j]? = some it ∧ it.keyAddr ≠ 0 ∧ it'.keyAddr = it.keyAddr ∧
        it'.keyHash = it.keyHash ∧ it'.value = it.value := by
    intro j it' hj h0
    rcases hback j it' hj with ⟨h1, rfl⟩ | ⟨h1, it, hit, rfl⟩
    · exact absurd rfl h0
    · obtain ⟨f1, f2, f3⟩ := hfields it (dist (2 ^ p) kh j < e)
      rw [f1] at h0
      exact ⟨h1, it, hit, h0, f1, f2, f3⟩
  refine ⟨by rw [hitems', List.length_mapIdx, inv.len], ?_, ?_, ?_, ?_, ?_,
    GMap.distinct_remove inv.dv _, GMap.distinct_remove inv.da _⟩
  · intro j it' hj h0
    obtain ⟨_, it, hit, h1, h2, h3, _⟩ := hocc j it' hj h0
    rw [h3, h2, inv.hash j it hit h1]
  · intro j j' it it' hj hj' h0 h0' hk
    obtain ⟨a1, b, a2, a3, a4, _⟩ := hocc j it hj h0
    obtain ⟨c1, d, c2, c3, c4, _⟩ := hocc j' it' hj' h0'
    rw [a4, c4] at hk; exact inv.inj _ _ _ _ a2 c2 a3 c3 hk
  · have hps : ∀ i, passes (2 ^ p) items i s = decide (dist (2 ^ p) kh i < e) := by
      intro i; simp [passes, hit0, h00, hh0, ← hds]
    have hps' : ∀ i, passes (2 ^ p) items' i s = false := by
      intro i; simp [passes, hread_s]
    have hsame : ∀ j < 2 ^ p, j ≠ s → ∀ i, passes (2 ^ p) items i j = passes (2 ^ p) items' i j := by
      intro j hj hne i
      obtain ⟨it, hit⟩ : ∃ it, items[j]? = some it := ⟨_, List.getElem?_eq_getElem (inv.len ▸ hj)⟩
      obtain ⟨f1, f2, f3⟩ := hfields it (dist (2 ^ p) kh j < e)
      simp only [passes, hread_ne j it hit hne, hit, f1, f2]
    intro j it' hj
    have hcu := chain_update (items := items) (items' := items') hsl hsame j
    rw [hps, hps'] at hcu
    simp only [Bool.toNat_false, Nat.add_zero] at hcu
    rcases hback j it' hj with ⟨rfl, rfl⟩ | ⟨h1, it, hit, rfl⟩
    · rw [← hds] at hcu
      simp at hcu
      rw [hcu]; exact inv.chain _ it0 hit0
    · have hle : it.chain ≤ 2 ^ p := by
        rw [inv.chain _ it hit]
        exact le_trans List.countP_le_length (by simp)
      rw [← inv.chain _ it hit] at hcu
      by_cases hd : dist (2 ^ p) kh j < e
      · simp only [hd, if_true, decide_true, Bool.toNat_true] at hcu ⊢
        omega
      · simp [hd] at hcu ⊢
        exact hcu.symm
  · intro k w
    rw [GMap.get_remove]
    by_cases hk : key = k
    · rw [if_pos hk]
      simp only [reduceCtorEq, false_iff]
      rintro ⟨j, it', hj, h0, h1, h2⟩
      obtain ⟨q0, it, hit, q1, q2, q3, q4⟩ := hocc j it' hj h0
      rw [q2] at h1; exact absurd (h1.trans hk.symm) (habs _ _ hit q1 q0)
    · rw [if_neg hk, inv.vals]
      constructor
      · rintro ⟨j, it, hj, h0, h1, h2⟩
        have hne : j ≠ s := by
          rintro rfl; rw [hit0] at hj; cases hj; exact hk (hkey.symm.trans h1)
        obtain ⟨f1, f2, f3⟩ := hfields it (dist (2 ^ p) kh j < e)
        exact ⟨j, _, hread_ne j it hj hne, by rw [f1]; exact h0, by rw [f1]; exact h1, by rw [f3]; exact h2⟩
      · rintro ⟨j, it', hj, h0, h1, h2⟩
        obtain ⟨_, it, hit, q1, q2, q3, q4⟩ := hocc j it' hj h0
        exact ⟨j, it, hit, q1, q2 ▸ h1, q4 ▸ h2⟩
  · intro k w
    rw [GMap.get_remove]
    by_cases hk : key = k
    · rw [if_pos hk]
      simp only [reduceCtorEq, false_iff]
      rintro ⟨j, it', hj, h0, h1, h2⟩
      obtain ⟨q0, it, hit, q1, q2, q3, q4⟩ := hocc j it' hj h0
      rw [q2] at h1; exact absurd (h1.trans hk.symm) (habs _ _ hit q1 q0)
    · rw [if_neg hk, inv.adrs]
      constructor
      · rintro ⟨j, it, hj, h0, h1, h2⟩
        have hne : j ≠ s := by
          rintro rfl; rw [hit0] at hj; cases hj; exact hk (hkey.symm.trans h1)
        obtain ⟨f1, f2, f3⟩ := hfields it (dist (2 ^ p) kh j < e)
        exact ⟨j, _, hread_ne j it hj hne, by rw [f1]; exact h0, by rw [f1]; exact h1, by rw [f1]; exact h2⟩
      · rintro ⟨j, it', hj, h0, h1, h2⟩
        obtain ⟨_, it, hit, q1, q2, q3, q4⟩ := hocc j it' hj h0
        exact ⟨j, it, hit, q1, q2 ▸ h1, q2 ▸ h2⟩

end

/-! ### Refinement -/

/-- The hash only depends on the bytes. -/
def HashOk (hash : HashFn) (hf : List UInt8 → Nat) : Prop :=
  ∀ mem a n, hash mem a n = hf (bytesAt mem a n)

structure Rep (hf : List UInt8 → Nat) (ks capacity : Nat) (m : Map) (st : HashMapSpec.State) : Prop where
  keySize : m.keySize = ks
  cap : (capacity = 0 ∧ m.capacity = 0) ∨ ∃ p ≤ 63, m.capacity = 2 ^ p ∧ capacity ≤ 2 ^ p
  inv : Inv hf st.mem ks m.capacity m.items st.values st.addrs

def callOf : Op → HashMapSpec.Call
  | .get p => .get p
  | .set p v => .set p v
  | .remove p => .remove p
  | .write a v => .write a v

theorem keyAt_eq (ks : Nat) (st : HashMapSpec.State) (p : Nat) :
    HashMapSpec.keyAt ks st p = bytesAt st.mem p ks := rfl

theorem clearLoop_spec : ∀ k n (items : List Item), n + k = items.length →
    (∀ it ∈ items, it = ⟨0, 0, 0, 0⟩) → clearLoop k n items = some items := by
  intro k
  induction k with
  | zero => intro n items _ _; rfl
  | succ k ih =>
    intro n items hn h0
    have hlt : n < items.length := by omega
    have hz := h0 items[n] (List.getElem_mem hlt)
    rw [clearLoop, List.getElem?_eq_getElem hlt]
    simp only [Option.bind_eq_bind, Option.bind_some]
    have : items.set n { items[n] with keyAddr := 0, chain := 0 } = items := by
      rw [hz]
      conv_rhs => rw [← List.set_getElem_self (as := items) hlt]
      rw [hz]
    rw [this]
    exact ih (n + 1) items (by omega) h0

theorem alloc_rep (hf : List UInt8 → Nat) (ks capacity : Nat) (hc : capacity * 64 ≤ 2 ^ 64 - 1) (mem : Mem) :
    ∃ m, alloc ks capacity = some m ∧ Rep hf ks capacity m ⟨mem, [], []⟩ := by
  have hinv : ∀ n, Inv hf mem ks n (List.replicate n ⟨0, 0, 0, 0⟩) [] [] := by
    intro n
    have hz : ∀ (j : Nat) (it : Item), (List.replicate n (⟨0, 0, 0, 0⟩ : Item))[j]? = some it → it = ⟨0, 0, 0, 0⟩ := by
      intro j it h
      exact List.eq_of_mem_replicate (List.mem_of_getElem? h)
    refine ⟨by simp, ?_, ?_, ?_, ?_, ?_, GMap.distinct_nil, GMap.distinct_nil⟩
    · intro j it h h0; rw [hz j it h] at h0; exact absurd rfl h0
    · intro j j' it it' h _ h0; rw [hz j it h] at h0; exact absurd rfl h0
    · intro j it h
      rw [hz j it h]
      symm
      rw [List.countP_eq_zero]
      intro j' _
      simp only [passes]
      cases hj : (List.replicate n (⟨0, 0, 0, 0⟩ : Item))[j']? with
      | none => simp
      | some it => rw [hz j' it hj]; simp
    · intro k v
      simp only [GMap.get, reduceCtorEq, false_iff]
      rintro ⟨j, it, h, h0, _⟩; rw [hz j it h] at h0; exact absurd rfl h0
    · intro k v
      simp only [GMap.get, reduceCtorEq, false_iff]
      rintro ⟨j, it, h, h0, _⟩; rw [hz j it h] at h0; exact absurd rfl h0
  have hclear : ∀ n, clearLoop n 0 (List.replicate n (⟨0, 0, 0, 0⟩ : Item)) = some (List.replicate n ⟨0, 0, 0, 0⟩) :=
    fun n => clearLoop_spec n 0 _ (by simp) (fun it h => List.eq_of_mem_replicate h)
  by_cases h0 : capacity = 0
  · subst h0
    exact ⟨_, rfl, rfl, .inl ⟨rfl, rfl⟩, hinv 0⟩
  · obtain ⟨r, h1, h2, h3, _⟩ := getRealCapacity_spec capacity (by omega) h0
    refine ⟨⟨List.replicate (2 ^ r) ⟨0, 0, 0, 0⟩, ks, 2 ^ r⟩, ?_, rfl, .inr ⟨r, h2, rfl, h3⟩, hinv _⟩
    simp only [alloc, h1, Option.bind_eq_bind, Option.bind_some, hclear]

variable {hash : HashFn} {hf : List UInt8 → Nat} {ks capacity : Nat}

theorem get_rep (hh : HashOk hash hf) {m : Map} {st : HashMapSpec.State} (r : Rep hf ks capacity m st)
    (kp : Nat) : get hash st.mem m kp = some (st.values.get (bytesAt st.mem kp ks)) := by
  obtain ⟨rk, rc, inv⟩ := r
  unfold get
  rw [rk, hh]
  rcases rc with ⟨_, h0⟩ | ⟨p, hp, hcap, _⟩
  · rw [h0]
    rw [h0] at inv
    have hnil : m.items = [] := List.length_eq_zero_iff.1 inv.len
    cases hv : st.values.get (bytesAt st.mem kp ks) with
    | none => rfl
    | some v =>
      obtain ⟨j, it, hj, _⟩ := (inv.vals _ _).1 hv
      rw [hnil] at hj; simp at hj
  · rw [hcap] at inv ⊢
    set key := bytesAt st.mem kp ks with hkey
    cases hv : st.values.get key with
    | none =>
      refine getLoop_absent st.mem ks p kp (hf key) hp m.items inv.len ?_ (2 ^ p) 0 (by omega)
      intro j it hj h0 hk
      have := (inv.vals key it.value).2 ⟨j, it, hj, h0, hk, rfl⟩
      rw [hv] at this; cases this
    | some v =>
      obtain ⟨s, it0, hs, h0, hk, hval⟩ := (inv.vals _ _).1 hv
      have hsl : s < 2 ^ p := inv.len ▸ getElem?_lt hs
      have hhs : it0.keyHash = hf key := by rw [inv.hash s it0 hs h0, hk]
      refine getLoop_present st.mem ks p kp (hf key) hp m.items inv.len (dist (2 ^ p) (hf key) s) v
        (dist_lt (by positivity) _ _) ?_ ?_ (dist (2 ^ p) (hf key) s) 0 (by omega)
      · intro e' he' it hit
        have he'' : e' < 2 ^ p := lt_trans he' (dist_lt (by positivity) _ _)
        constructor
        · intro h0' hk'
          have := inv.inj _ _ _ _ hit hs h0' h0 (hk'.trans hk.symm)
          rw [← this, dist_slot he''] at he'
          omega
        · rw [inv.chain _ _ hit]
          have : passes (2 ^ p) m.items (slot (2 ^ p) (hf key) e') s = true := by
            simp [passes, hs, h0, hhs, dist_slot he'', he']
          have := countP_pos_of hsl this
          omega
      · intro it hit
        rw [slot_dist hsl, hs] at hit
        cases hit
        exact ⟨h0, hhs, hk, hval⟩

theorem set_rep (hh : HashOk hash hf) {m : Map} {st : HashMapSpec.State} (r : Rep hf ks capacity m st)
    (kp v : Nat) (hpre : HashMapSpec.Pre ks capacity st (.set kp v)) :
    ∃ m', set hash st.mem m kp v = some m' ∧ Rep hf ks capacity m' (HashMapSpec.next ks st (.set kp v)) ∧
      ∃ s : Nat, (∃ it, m.items[s]? = some it ∧ it.keyAddr = 0) ∧
        (∃ it, m'.items[s]? = some it ∧ it.keyAddr = kp ∧ it.value = v) ∧
        ∀ j ≠ s, m'.items[j]?.map (fun it => (it.keyAddr, it.value, it.keyHash)) =
          m.items[j]?.map (fun it => (it.keyAddr, it.value, it.keyHash)) := by
  obtain ⟨rk, rc, inv⟩ := r
  obtain ⟨p1, p2, p3, p4⟩ := hpre
  rw [keyAt_eq] at p3 p4
  rcases rc with ⟨h0, _⟩ | ⟨p, hp, hcap, hle⟩
  · omega
  rw [hcap] at inv
  set key := bytesAt st.mem kp ks with hkey
  obtain ⟨e, he, hfree, hocc⟩ := exists_first_free (by positivity) inv (by omega) (hf key)
  have hloop := setLoop_spec p kp (hf key) v hp m.items inv.len e he hocc hfree e 0 (by omega)
  have hid : (m.items.mapIdx fun j it => if dist (2 ^ p) (hf key) j < 0 then
      { it with chain := (it.chain + 1) % 2 ^ 64 } else it) = m.items := by
    simp only [Nat.not_lt_zero, if_false]
    apply List.ext_getElem?; intro j; simp
  rw [hid, Nat.sub_zero] at hloop
  have hset : set hash st.mem m kp v = some { m with items :=
      (m.items.mapIdx fun j it => setItem kp (hf key) v e (dist (2 ^ p) (hf key) j) it) } := by
    simp only [set, rk, hh st.mem kp ks, ← hkey, hcap, hloop, Option.bind_eq_bind, Option.bind_some]
  have hsl := slot_lt (show 0 < 2 ^ p by positivity) (hf key) e
  obtain ⟨it0, hit0⟩ : ∃ it, m.items[slot (2 ^ p) (hf key) e]? = some it :=
    ⟨_, List.getElem?_eq_getElem (inv.len ▸ hsl)⟩
  refine ⟨_, hset, ⟨rk, .inr ⟨p, hp, hcap, hle⟩, ?_⟩, slot (2 ^ p) (hf key) e, ⟨it0, hit0, hfree _ hit0⟩, ?_, ?_⟩
  · simp only [HashMapSpec.next, keyAt_eq, hcap]
    exact inv_set hp inv p1 he hfree p3
  · refine ⟨{ it0 with keyAddr := kp, keyHash := hf key, value := v }, ?_, rfl, rfl⟩
    simp [List.getElem?_mapIdx, hit0, setItem, dist_slot he]
  · intro j hj
    simp only [List.getElem?_mapIdx]
    cases hjj : m.items[j]? with
    | none => rfl
    | some it =>
      have hjl : j < 2 ^ p := inv.len ▸ getElem?_lt hjj
      have : dist (2 ^ p) (hf key) j ≠ e := fun h => hj (by rw [← h, slot_dist hjl])
      simp only [Option.map_some, setItem, this, if_false]
      split <;> rfl

theorem remove_rep (hh : HashOk hash hf) {m : Map} {st : HashMapSpec.State} (r : Rep hf ks capacity m st)
    (kp : Nat) (hpre : HashMapSpec.Pre ks capacity st (.remove kp)) :
    ∃ m', remove hash st.mem m kp = some m' ∧ Rep hf ks capacity m' (HashMapSpec.next ks st (.remove kp)) := by
  obtain ⟨rk, rc, inv⟩ := r
  obtain ⟨p1, p2, p3⟩ := hpre
  rw [keyAt_eq] at p2 p3
  set key := bytesAt st.mem kp ks with hkey
  obtain ⟨v, hv⟩ := Option.ne_none_iff_exists'.1 p2
  obtain ⟨s, it0, hs, h0, hk, hval⟩ := (inv.vals _ _).1 hv
  rcases rc with ⟨_, hz⟩ | ⟨p, hp, hcap, hle⟩
  · have := getElem?_lt hs; rw [inv.len, hz] at this; omega
  rw [hcap] at inv
  have hsl : s < 2 ^ p := inv.len ▸ getElem?_lt hs
  have hhs : it0.keyHash = hf key := by rw [inv.hash s it0 hs h0, hk]
  have hloop := removeLoop_spec st.mem ks p kp (hf key) hp m.items inv.len (dist (2 ^ p) (hf key) s)
    (dist_lt (by positivity) _ _) (by
      intro e' he' it hit h0' hk'
      have := inv.inj _ _ _ _ hit hs h0' h0 (hk'.trans hk.symm)
      rw [← this, dist_slot (lt_trans he' (dist_lt (by positivity) _ _))] at he'
      omega) (by
      intro it hit
      rw [slot_dist hsl, hs] at hit; cases hit
      exact ⟨h0, hhs, hk⟩) (dist (2 ^ p) (hf key) s) 0 (by omega)
  have hid : (m.items.mapIdx fun j it => if dist (2 ^ p) (hf key) j < 0 then
      { it with chain := (it.chain + (2 ^ 64 - 1)) % 2 ^ 64 } else it) = m.items := by
    simp only [Nat.not_lt_zero, if_false]
    apply List.ext_getElem?; intro j; simp
  rw [hid, Nat.sub_zero] at hloop
  have hrem : remove hash st.mem m kp = some { m with items := (m.items.mapIdx fun j it =>
      removeItem (dist (2 ^ p) (hf key) s) (dist (2 ^ p) (hf key) j) it) } := by
    simp only [remove, rk, hh st.mem kp ks, ← hkey, hcap, hloop, Option.bind_eq_bind, Option.bind_some]
  refine ⟨_, hrem, rk, .inr ⟨p, hp, hcap, hle⟩, ?_⟩
  simp only [HashMapSpec.next, keyAt_eq, hcap]
  exact inv_remove hp inv hs h0 hk

theorem write_rep {m : Map} {st : HashMapSpec.State} (r : Rep hf ks capacity m st)
    (a : Nat) (v : UInt8) (hpre : HashMapSpec.Pre ks capacity st (.write a v)) :
    Rep hf ks capacity m (HashMapSpec.next ks st (.write a v)) := by
  obtain ⟨rk, rc, inv⟩ := r
  refine ⟨rk, rc, ?_⟩
  have hsame : ∀ (j : Nat) (it : Item), m.items[j]? = some it → it.keyAddr ≠ 0 →
      bytesAt (HashMapSpec.next ks st (.write a v)).mem it.keyAddr ks = bytesAt st.mem it.keyAddr ks := by
    intro j it hj h0
    have := hpre _ _ ((inv.adrs (bytesAt st.mem it.keyAddr ks) it.keyAddr).2 ⟨j, it, hj, h0, rfl, rfl⟩)
    rw [bytesAt_eq_iff]
    intro i hi
    simp only [HashMapSpec.next]
    rw [if_neg (by omega)]
  refine ⟨inv.len, ?_, ?_, inv.chain, ?_, ?_, inv.dv, inv.da⟩
  · intro j it hj h0; rw [hsame j it hj h0]; exact inv.hash j it hj h0
  · intro j j' it it' hj hj' h0 h0' hk
    rw [hsame j it hj h0, hsame j' it' hj' h0'] at hk
    exact inv.inj j j' it it' hj hj' h0 h0' hk
  · intro k w
    show st.values.get k = some w ↔ _
    rw [inv.vals]
    constructor
    · rintro ⟨j, it, hj, h0, h1⟩; exact ⟨j, it, hj, h0, by rw [hsame j it hj h0]; exact h1⟩
    · rintro ⟨j, it, hj, h0, h1⟩; exact ⟨j, it, hj, h0, by rw [← hsame j it hj h0]; exact h1⟩
  · intro k w
    show st.addrs.get k = some w ↔ _
    rw [inv.adrs]
    constructor
    · rintro ⟨j, it, hj, h0, h1⟩; exact ⟨j, it, hj, h0, by rw [hsame j it hj h0]; exact h1⟩
    · rintro ⟨j, it, hj, h0, h1⟩; exact ⟨j, it, hj, h0, by rw [← hsame j it hj h0]; exact h1⟩

theorem step_refines (hh : HashOk hash hf) {m : Map} {st : HashMapSpec.State} (r : Rep hf ks capacity m st)
    (op : Op) (hpre : HashMapSpec.Pre ks capacity st (callOf op)) :
    ∃ m', step hash (m, st.mem) op = some ((m', (HashMapSpec.next ks st (callOf op)).mem),
        HashMapSpec.answer ks st (callOf op)) ∧
      Rep hf ks capacity m' (HashMapSpec.next ks st (callOf op)) := by
  cases op with
  | get kp =>
    refine ⟨m, ?_, r⟩
    simp [step, get_rep hh r kp, callOf, HashMapSpec.next, HashMapSpec.answer, keyAt_eq]
  | set kp v =>
    obtain ⟨m', h1, h2, _⟩ := set_rep hh r kp v hpre
    refine ⟨m', ?_, h2⟩
    simp [step, h1, callOf, HashMapSpec.next, HashMapSpec.answer]
  | remove kp =>
    obtain ⟨m', h1, h2⟩ := remove_rep hh r kp hpre
    refine ⟨m', ?_, h2⟩
    simp [step, h1, callOf, HashMapSpec.next, HashMapSpec.answer]
  | write a v => exact ⟨m, rfl, write_rep r a v hpre⟩

theorem run_refines (hh : HashOk hash hf) : ∀ (ops : List Op) {m : Map} {st : HashMapSpec.State},
    Rep hf ks capacity m st → HashMapSpec.Legal ks capacity st (ops.map callOf) →
    ∃ m', run hash (m, st.mem) ops = some ((m', (HashMapSpec.final ks st (ops.map callOf)).mem),
        HashMapSpec.answers ks st (ops.map callOf)) ∧
      Rep hf ks capacity m' (HashMapSpec.final ks st (ops.map callOf)) := by
  intro ops
  induction ops with
  | nil => intro m st r _; exact ⟨m, rfl, r⟩
  | cons op ops ih =>
    intro m st r hl
    obtain ⟨hpre, hl⟩ := hl
    obtain ⟨m1, h1, r1⟩ := step_refines hh r op hpre
    obtain ⟨m2, h2, r2⟩ := ih r1 hl
    refine ⟨m2, ?_, r2⟩
    simp [run, h1, h2, HashMapSpec.final, HashMapSpec.answers]

/-- The real hash function only depends on the bytes. -/
theorem memory_hash_ok : HashOk (fun m a n => (Memory.hash m a n).toNat)
    (fun bs => (Memory.hash (fun i => bs.getD i 0) 0 bs.length).toNat) := by
  intro mem a n
  simp only [bytesAt_length]
  congr 1
  apply Memory.hash_congr
  rw [bytesAt_eq_iff]
  intro i hi
  simp [bytesAt, hi]

end Verif.HashMap
