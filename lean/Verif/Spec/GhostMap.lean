/-
Abstract finite maps, as used by the contracts of the C data structures.

Mirrors the contract API of /repo/env/include/proof/ghost_map.gh lines 5-58:
a ghost map is an association list; `get` takes the first match, `set` and
`remove` drop every binding of the key first.
-/
import Mathlib.Data.List.Nodup
import Mathlib.Data.List.Dedup
import Mathlib.Data.List.Range
import Mathlib.Data.List.Perm.Subperm

namespace Verif

/-- ghost_map.gh: `list<pair<k, v>>`. -/
abbrev GMap (K V : Type) := List (K × V)

namespace GMap
variable {K V : Type} [DecidableEq K]

/-- ghost_map.gh:5-15 `ghostmap_get`. -/
def get : GMap K V → K → Option V
  | [], _ => none
  | (hk, hv) :: t, k => if hk = k then some hv else get t k

/-- ghost_map.gh:17-27 `ghostmap_set`. -/
def set : GMap K V → K → V → GMap K V
  | [], k, v => [(k, v)]
  | (hk, hv) :: t, k, v => if hk = k then set t k v else (hk, hv) :: set t k v

/-- ghost_map.gh:29-39 `ghostmap_remove`. -/
def remove : GMap K V → K → GMap K V
  | [], _ => []
  | (hk, hv) :: t, k => if hk = k then remove t k else (hk, hv) :: remove t k

/-- ghost_map.gh:41-51 `ghostmap_forall`. -/
def forallB (p : K → V → Bool) : GMap K V → Bool
  | [] => true
  | (hk, hv) :: t => p hk hv && forallB p t

/-- ghost_map.gh:56-58 `ghostmap_distinct`. -/
def Distinct (m : GMap K V) : Prop := (m.map Prod.fst).Nodup

/-- ghost_map.gh:60-62 `ghostmap_has`. -/
def has (m : GMap K V) (k : K) : Bool := (m.get k).isSome

theorem get_set (m : GMap K V) (k k' : K) (v : V) :
    (m.set k v).get k' = if k = k' then some v else m.get k' := by
  induction m with
  | nil => simp [set, get]
  | cons h t ih =>
    obtain ⟨hk, hv⟩ := h
    by_cases h1 : hk = k
    · simp only [set, h1, ↓reduceIte, ih, get]
      split <;> rfl
    · simp only [set, h1, ↓reduceIte, get, ih]
      by_cases h2 : hk = k'
      · simp only [h2, ↓reduceIte]
        rw [if_neg]; intro h; exact h1 (h2.trans h.symm)
      · simp [h2]

theorem get_remove (m : GMap K V) (k k' : K) :
    (m.remove k).get k' = if k = k' then none else m.get k' := by
  induction m with
  | nil => simp [remove, get]
  | cons h t ih =>
    obtain ⟨hk, hv⟩ := h
    by_cases h1 : hk = k
    · simp only [remove, h1, ↓reduceIte, ih, get]
      split <;> rfl
    · simp only [remove, h1, ↓reduceIte, get, ih]
      by_cases h2 : hk = k'
      · simp only [h2, ↓reduceIte]
        rw [if_neg]; intro h; exact h1 (h2.trans h.symm)
      · simp [h2]

theorem get_eq_none_iff (m : GMap K V) (k : K) : m.get k = none ↔ k ∉ m.map Prod.fst := by
  induction m with
  | nil => simp [get]
  | cons h t ih =>
    obtain ⟨hk, hv⟩ := h
    by_cases h1 : hk = k
    · simp [get, h1]
    · simp [get, h1, ih, Ne.symm h1]

theorem get_some_mem {m : GMap K V} {k : K} {v : V} (h : m.get k = some v) : (k, v) ∈ m := by
  induction m with
  | nil => simp [get] at h
  | cons x t ih =>
    obtain ⟨hk, hv⟩ := x
    by_cases h1 : hk = k
    · simp [get, h1] at h; simp [h1, h]
    · simp [get, h1] at h; exact List.mem_cons_of_mem _ (ih h)

theorem mem_get {m : GMap K V} (hd : Distinct m) {k : K} {v : V} (h : (k, v) ∈ m) :
    m.get k = some v := by
  induction m with
  | nil => simp at h
  | cons x t ih =>
    obtain ⟨hk, hv⟩ := x
    simp only [Distinct, List.map_cons, List.nodup_cons] at hd
    rcases List.mem_cons.1 h with h | h
    · cases h; simp [get]
    · have : k ∈ t.map Prod.fst := List.mem_map.2 ⟨_, h, rfl⟩
      have hne : hk ≠ k := fun e => hd.1 (e ▸ this)
      simp [get, hne, ih hd.2 h]

theorem keys_remove (m : GMap K V) (k : K) :
    (m.remove k).map Prod.fst = (m.map Prod.fst).filter (fun x => x ≠ k) := by
  induction m with
  | nil => rfl
  | cons x t ih =>
    obtain ⟨hk, hv⟩ := x
    by_cases h : hk = k <;> simp [remove, h, ih]

theorem keys_set (m : GMap K V) (k : K) (v : V) :
    (m.set k v).map Prod.fst = (m.map Prod.fst).filter (fun x => x ≠ k) ++ [k] := by
  induction m with
  | nil => rfl
  | cons x t ih =>
    obtain ⟨hk, hv⟩ := x
    by_cases h : hk = k <;> simp [set, h, ih]

omit [DecidableEq K] in
theorem distinct_nil : Distinct ([] : GMap K V) := List.nodup_nil

theorem distinct_remove {m : GMap K V} (h : Distinct m) (k : K) : Distinct (m.remove k) := by
  unfold Distinct; rw [keys_remove]; exact h.filter _

theorem distinct_set {m : GMap K V} (h : Distinct m) (k : K) (v : V) : Distinct (m.set k v) := by
  unfold Distinct; rw [keys_set]
  refine List.Nodup.append (List.Nodup.filter _ h) (by simp) ?_
  intro x hx hx'
  simp at hx hx'
  exact hx.2 hx'

theorem forallB_iff {p : K → V → Bool} {m : GMap K V} (hd : Distinct m) :
    forallB p m = true ↔ ∀ k v, m.get k = some v → p k v = true := by
  have key : forallB p m = true ↔ ∀ x ∈ m, p x.1 x.2 = true := by
    clear hd
    induction m with
    | nil => simp [forallB]
    | cons x t ih => obtain ⟨hk, hv⟩ := x; simp [forallB, ih]
  rw [key]
  constructor
  · intro h k v hg; exact h _ (get_some_mem hg)
  · rintro h ⟨k, v⟩ hm; exact h k v (mem_get hd hm)

theorem filter_ne_length_of_nodup {l : List K} (h : l.Nodup) (k : K) :
    (l.filter (fun x => x ≠ k)).length = if k ∈ l then l.length - 1 else l.length := by
  induction l with
  | nil => simp
  | cons x t ih =>
    rw [List.nodup_cons] at h
    have := ih h.2
    by_cases hx : x = k
    · subst hx
      simp only [h.1, ↓reduceIte] at this
      simpa using this
    · by_cases hk : k ∈ t
      · simp only [hk, ↓reduceIte] at this
        have h0 : t.length ≠ 0 := by
          intro h0; rw [List.length_eq_zero_iff] at h0; simp [h0] at hk
        have hf : (x :: t).filter (fun y => y ≠ k) = x :: t.filter (fun y => y ≠ k) := by
          simp [hx]
        rw [hf, List.length_cons, this, if_pos (List.mem_cons_of_mem _ hk), List.length_cons]
        omega
      · simp only [hk, ↓reduceIte] at this
        have hf : (x :: t).filter (fun y => y ≠ k) = x :: t.filter (fun y => y ≠ k) := by
          simp [hx]
        have hn : k ∉ x :: t := by
          simp only [List.mem_cons, not_or]; exact ⟨Ne.symm hx, hk⟩
        rw [hf, List.length_cons, this, if_neg hn, List.length_cons]

theorem length_set {m : GMap K V} (h : Distinct m) (k : K) (v : V) :
    (m.set k v).length = if m.get k = none then m.length + 1 else m.length := by
  have h1 := congrArg List.length (keys_set m k v)
  have h2 := filter_ne_length_of_nodup h k
  simp only [List.length_map, List.length_append, List.length_singleton] at h1 h2
  rw [h1, h2]
  by_cases hm : k ∈ m.map Prod.fst
  · have : m.get k ≠ none := by rw [ne_eq, get_eq_none_iff]; exact fun h => h hm
    have : m.length ≠ 0 := by
      intro h0; rw [List.length_eq_zero_iff] at h0; simp [h0] at hm
    simp only [↓reduceIte, *]; omega
  · have : m.get k = none := (get_eq_none_iff m k).2 hm
    simp [hm, this]

theorem length_remove {m : GMap K V} (h : Distinct m) (k : K) :
    (m.remove k).length = if m.get k = none then m.length else m.length - 1 := by
  have h1 := congrArg List.length (keys_remove m k)
  have h2 := filter_ne_length_of_nodup h k
  simp only [List.length_map] at h1 h2
  rw [h1, h2]
  by_cases hm : k ∈ m.map Prod.fst
  · have : m.get k ≠ none := by rw [ne_eq, get_eq_none_iff]; exact fun h => h hm
    simp only [↓reduceIte, *]
  · have : m.get k = none := (get_eq_none_iff m k).2 hm
    simp [hm, this]

/-- Pigeonhole: a map with distinct keys below `n` has at most `n` bindings, and
exactly `n` iff every key below `n` is bound. -/
theorem length_le_of_keys_lt {m : GMap Nat V} (h : Distinct m) {n : Nat}
    (hk : ∀ k, m.get k ≠ none → k < n) :
    m.length ≤ n ∧ (m.length = n ↔ ∀ k < n, m.get k ≠ none) := by
  have hsub : m.map Prod.fst ⊆ List.range n := by
    intro k hm
    rw [List.mem_range]
    apply hk; rw [ne_eq, get_eq_none_iff]; exact fun h => h hm
  have hsp : (m.map Prod.fst).Subperm (List.range n) := List.subperm_of_subset h hsub
  have hle := hsp.length_le
  simp only [List.length_map, List.length_range] at hle
  refine ⟨hle, ?_, ?_⟩
  · intro heq k hkn
    have hperm : (m.map Prod.fst).Perm (List.range n) :=
      hsp.perm_of_length_le (by simp [heq])
    rw [ne_eq, get_eq_none_iff, not_not]
    exact hperm.mem_iff.2 (List.mem_range.2 hkn)
  · intro hall
    have hsub' : List.range n ⊆ m.map Prod.fst := by
      intro k hm
      have := hall k (List.mem_range.1 hm)
      rw [ne_eq, get_eq_none_iff, not_not] at this
      exact this
    have := (List.subperm_of_subset List.nodup_range hsub').length_le
    simp only [List.length_map, List.length_range] at this
    omega

end GMap
end Verif
