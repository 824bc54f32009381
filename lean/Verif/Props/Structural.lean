/-
C15: structural equality and difference.
-/
import Verif.Tool.Structural

set_option autoImplicit false
set_option linter.unusedSectionVars false

namespace Verif.Props
open Verif.Tool.Structural

/-! ### Specification: what can be observed of a nested value -/

/-- A step into a value: a key of a dictionary or named tuple, or a position in a list. -/
inductive Step where
  | key (k : Key)
  | pos (i : Nat)

/-- What is seen at the end of a path. -/
inductive Leaf (E : Type) where
  | none
  | expr (e : E)
  | str (s : List Char)
  | num (n : Int)
  | list (length : Nat)
  | record
  | dict

def leaf {E : Type} : Val E → Leaf E
  | .none => .none
  | .expr e => .expr e
  | .record _ => .record
  | .dict _ => .dict
  | .str s => .str s
  | .num n => .num n
  | .list l => .list l.length

def child {E : Type} : Val E → Step → Option (Val E)
  | .record fs, .key k => (fs.find? fun kv => kv.1 == k).map (·.2)
  | .dict kvs, .key k => (kvs.find? fun kv => kv.1 == k).map (·.2)
  | .list l, .pos i => l[i]?
  | _, _ => none

/-- What is seen along a path; none if the path does not exist. -/
def observe {E : Type} : Val E → List Step → Option (Leaf E)
  | v, [] => some (leaf v)
  | v, s :: p => (child v s).bind fun c => observe c p

/-- Types of nested values: values of one type have the same shape, except for which keys are
present and which optional parts are None. -/
inductive Ty where
  | expr
  | str
  | num
  | opt (t : Ty)
  | list (t : Ty)
  | record (t : Key → Ty)
  | dict (t : Key → Ty)

inductive HasType {E : Type} : Val E → Ty → Prop where
  | expr (e : E) : HasType (.expr e) .expr
  | str (s : List Char) : HasType (.str s) .str
  | num (n : Int) : HasType (.num n) .num
  | none (t : Ty) : HasType .none (.opt t)
  | some {v : Val E} {t : Ty} : HasType v t → HasType v (.opt t)
  | list {l : List (Val E)} {t : Ty} : (∀ v ∈ l, HasType v t) → HasType (.list l) (.list t)
  | record {fs : List (Key × Val E)} {t : Key → Ty} : (∀ kv ∈ fs, HasType kv.2 (t kv.1)) → HasType (.record fs) (.record t)
  | dict {fs : List (Key × Val E)} {t : Key → Ty} : (∀ kv ∈ fs, HasType kv.2 (t kv.1)) → HasType (.dict fs) (.dict t)

/-! ### Proofs -/

variable {E : Type} [DecidableEq E]

theorem lookup_mem {k : Key} {kvs : List (Key × Val E)} {v : Val E} (h : lookup k kvs = some v) : (k, v) ∈ kvs := by
  simp only [lookup, Option.map_eq_some_iff] at h
  obtain ⟨⟨k', v'⟩, h, rfl⟩ := h
  have h1 := List.find?_some h
  have h2 := List.mem_of_find?_eq_some h
  simp only [beq_iff_eq] at h1
  subst h1
  exact h2

theorem lookup_isSome {k : Key} {kvs : List (Key × Val E)} : (lookup k kvs).isSome ↔ k ∈ kvs.map (·.1) := by
  simp [lookup, Option.isSome_map, List.find?_isSome]

theorem dictEq_iff (eq : Val E → Val E → Bool) (f g : List (Key × Val E)) :
    dictEq eq f g = true ↔ ∀ k, (lookup k f = none ∧ lookup k g = none) ∨ ∃ x y, lookup k f = some x ∧ lookup k g = some y ∧ eq x y = true := by
  simp only [dictEq, List.all_eq_true, List.mem_append]
  constructor
  · intro h k
    by_cases hk : k ∈ f.map (·.1) ∨ k ∈ g.map (·.1)
    · have := h k hk
      split at this
      · rename_i x y h1 h2
        exact .inr ⟨x, y, h1, h2, this⟩
      · cases this
    · simp only [not_or, ← lookup_isSome, Option.not_isSome_iff_eq_none] at hk
      exact .inl hk
  · intro h k hk
    rcases h k with ⟨h1, h2⟩ | ⟨x, y, h1, h2, h3⟩
    · rw [← lookup_isSome, ← lookup_isSome, h1, h2] at hk
      simp at hk
    · rw [h1, h2]; exact h3

theorem dictEq_symm (eq : Val E → Val E → Bool) (hs : ∀ a b, eq a b = eq b a) (f g : List (Key × Val E)) : dictEq eq f g = dictEq eq g f := by
  rw [Bool.eq_iff_iff, dictEq_iff, dictEq_iff]
  constructor <;> intro h k <;> rcases h k with ⟨h1, h2⟩ | ⟨x, y, h1, h2, h3⟩
  · exact .inl ⟨h2, h1⟩
  · exact .inr ⟨y, x, h2, h1, by rw [hs]; exact h3⟩
  · exact .inl ⟨h2, h1⟩
  · exact .inr ⟨y, x, h2, h1, by rw [hs]; exact h3⟩

theorem zip_all_symm (eq : Val E → Val E → Bool) (hs : ∀ a b, eq a b = eq b a) (xs ys : List (Val E)) :
    ((xs.zip ys).all fun p => eq p.1 p.2) = (ys.zip xs).all fun p => eq p.1 p.2 := by
  induction xs generalizing ys with
  | nil => simp
  | cons x xs ih =>
    cases ys with
    | nil => simp
    | cons y ys => simp only [List.zip_cons_cons, List.all_cons, ih ys, hs x y]

theorem iterEq_symm (eq : Val E → Val E → Bool) (hs : ∀ a b, eq a b = eq b a) (a b : Val E) : iterEq eq a b = iterEq eq b a := by
  unfold iterEq
  cases elements a <;> cases elements b <;> simp only
  rename_i xs ys
  rw [zip_all_symm eq hs]
  congr 1
  rw [Bool.eq_iff_iff, beq_iff_eq, beq_iff_eq]
  exact eq_comm

theorem eqFuel_symm (n : Nat) : ∀ a b : Val E, eqFuel n a b = eqFuel n b a := by
  induction n with
  | zero => intro a b; rfl
  | succ n ih =>
    intro a b
    cases a <;> cases b <;> simp only [eqFuel] <;>
      first
        | rfl
        | exact dictEq_symm _ ih _ _
        | exact iterEq_symm _ ih _ _
        | (rw [Bool.eq_iff_iff, beq_iff_eq, beq_iff_eq]; exact eq_comm)

theorem C15_symmetric (a b : Val E) : structEq a b = structEq b a := by
  unfold structEq
  rw [Nat.add_comm, eqFuel_symm]

theorem size_pos (a : Val E) : 1 ≤ a.size := by
  cases a <;> simp only [Val.size] <;> omega

theorem size_list {l : List (Val E)} {v : Val E} (h : v ∈ l) : v.size ≤ sizeList l := by
  induction l with
  | nil => simp at h
  | cons x l ih =>
    simp only [sizeList]
    rcases List.mem_cons.1 h with rfl | h
    · omega
    · have := ih h; omega

theorem size_items {l : List (Key × Val E)} {kv : Key × Val E} (h : kv ∈ l) : kv.2.size + 1 ≤ sizeItems l := by
  induction l with
  | nil => simp at h
  | cons x l ih =>
    obtain ⟨k, v⟩ := x
    simp only [sizeItems]
    rcases List.mem_cons.1 h with rfl | h
    · simp only; omega
    · have := ih h; omega

theorem sizeOf_elements {a : Val E} {xs : List (Val E)} (h : elements a = some xs) {x : Val E} (hx : x ∈ xs) :
    x.size ≤ a.size ∧ (¬ (∃ s, a = .str s) → x.size < a.size) := by
  cases a with
  | none => simp [elements] at h
  | expr => simp [elements] at h
  | num => simp [elements] at h
  | record fs =>
    simp only [elements, Option.some.injEq] at h
    subst h
    obtain ⟨⟨k, v⟩, hm, rfl⟩ := List.mem_map.1 hx
    have := size_items hm
    simp only [Val.size] at *
    exact ⟨by omega, fun _ => by omega⟩
  | dict fs =>
    simp only [elements, Option.some.injEq] at h
    subst h
    obtain ⟨⟨k, v⟩, hm, rfl⟩ := List.mem_map.1 hx
    have := size_items hm
    have hk : (k.val : Val E).size = 1 := by
      cases k <;> simp only [Key.val, Val.size]
    simp only [Val.size] at *
    exact ⟨by omega, fun _ => by omega⟩
  | list l =>
    simp only [elements, Option.some.injEq] at h
    subst h
    have := size_list hx
    simp only [Val.size]
    exact ⟨by omega, fun _ => by omega⟩
  | str s =>
    simp only [elements, Option.some.injEq] at h
    subst h
    obtain ⟨c, hc, rfl⟩ := List.mem_map.1 hx
    exact ⟨by simp only [Val.size]; omega, fun h => absurd ⟨s, rfl⟩ h⟩

theorem sizeOf_lookup {k : Key} {f : List (Key × Val E)} {v : Val E} (h : lookup k f = some v) : v.size < sizeItems f := by
  have := size_items (lookup_mem h)
  simp only at this
  omega

theorem dictEq_congr (eq eq' : Val E → Val E → Bool) (f g : List (Key × Val E))
    (h : ∀ k x y, lookup k f = some x → lookup k g = some y → eq x y = eq' x y) : dictEq eq f g = dictEq eq' f g := by
  simp only [dictEq]
  congr 1
  funext k
  split
  · rename_i x y h1 h2; exact h k x y h1 h2
  · rfl

theorem iterEq_congr (eq eq' : Val E → Val E → Bool) (a b : Val E)
    (h : ∀ xs ys, elements a = some xs → elements b = some ys → ∀ x ∈ xs, ∀ y ∈ ys, eq x y = eq' x y) : iterEq eq a b = iterEq eq' a b := by
  simp only [iterEq]
  split
  · rename_i xs ys h1 h2
    congr 1
    rw [Bool.eq_iff_iff, List.all_eq_true, List.all_eq_true]
    refine forall₂_congr ?_
    rintro ⟨x, y⟩ hp
    rw [h xs ys h1 h2 x (List.of_mem_zip hp).1 y (List.of_mem_zip hp).2]
  · rfl

theorem eqFuel_stable (n : Nat) : ∀ (m : Nat) (a b : Val E), a.size + b.size ≤ n → a.size + b.size ≤ m → eqFuel n a b = eqFuel m a b := by
  induction n with
  | zero => intro m a b h; have := size_pos a; omega
  | succ n ih =>
    intro m a b hn hm
    cases m with
    | zero => have := size_pos a; omega
    | succ m =>
      have hd : ∀ f g : List (Key × Val E), sizeItems f + sizeItems g ≤ n → sizeItems f + sizeItems g ≤ m → dictEq (eqFuel n) f g = dictEq (eqFuel m) f g := by
        intro f g h1 h2
        refine dictEq_congr _ _ f g fun k x y hx hy => ?_
        have := sizeOf_lookup hx
        have := sizeOf_lookup hy
        exact ih m x y (by omega) (by omega)
      have hi : (¬ ((∃ s, a = .str s) ∧ ∃ s, b = .str s)) → iterEq (eqFuel n) a b = iterEq (eqFuel m) a b := by
        intro hne
        refine iterEq_congr _ _ a b fun xs ys h1 h2 x hx y hy => ?_
        have ha := sizeOf_elements h1 hx
        have hb := sizeOf_elements h2 hy
        have : x.size + y.size < a.size + b.size := by
          by_cases hs : ∃ s, a = .str s
          · have := hb.2 fun h => hne ⟨hs, h⟩
            omega
          · have := ha.2 hs
            omega
        exact ih m x y (by omega) (by omega)
      cases a <;> cases b <;> simp only [eqFuel] <;>
        first
          | exact hi (by simp)
          | (simp only [Val.size] at hn hm; exact hd _ _ (by omega) (by omega))

/-- The defining equations: structEq is the recursive function of the source. -/
theorem structEq_unfold (a b : Val E) : structEq a b =
    match a, b with
    | .none, .none => true
    | .none, _ => false
    | _, .none => false
    | .expr x, .expr y => x == y
    | .record f, .record g => dictEq structEq f g
    | .dict f, .dict g => dictEq structEq f g
    | .str s, .str t => s == t
    | .num x, .num y => x == y
    | a, b => iterEq structEq a b := by
  have h1 : structEq a b = eqFuel (a.size + b.size + 1) a b := eqFuel_stable _ _ a b (Nat.le_refl _) (by omega)
  have hd : ∀ f g : List (Key × Val E), sizeItems f + sizeItems g ≤ a.size + b.size → dictEq (eqFuel (a.size + b.size)) f g = dictEq structEq f g := by
    intro f g h
    refine dictEq_congr _ _ f g fun k x y hx hy => ?_
    have := sizeOf_lookup hx
    have := sizeOf_lookup hy
    exact eqFuel_stable _ _ x y (by omega) (Nat.le_refl _)
  have hi : iterEq (eqFuel (a.size + b.size)) a b = iterEq structEq a b := by
    refine iterEq_congr _ _ a b fun xs ys h1 h2 x hx y hy => ?_
    have ha := sizeOf_elements h1 hx
    have hb := sizeOf_elements h2 hy
    exact eqFuel_stable _ _ x y (by omega) (Nat.le_refl _)
  rw [h1]
  cases a <;> cases b <;> simp only [eqFuel] <;>
    first
      | exact hi
      | exact hd _ _ (by simp only [Val.size]; omega)

theorem C15_reflexive (a : Val E) : structEq a a = true := by
  suffices h : ∀ n (a : Val E), a.size ≤ n → structEq a a = true from h _ a (Nat.le_refl _)
  intro n
  induction n with
  | zero => intro a h; have := size_pos a; omega
  | succ n ih =>
    intro a hn
    rw [structEq_unfold]
    have hd : ∀ f : List (Key × Val E), sizeItems f ≤ n → dictEq structEq f f = true := by
      intro f hf
      rw [dictEq_iff]
      intro k
      cases hl : lookup k f with
      | none => exact .inl ⟨rfl, rfl⟩
      | some x =>
        have := sizeOf_lookup hl
        exact .inr ⟨x, x, rfl, rfl, ih x (by omega)⟩
    cases a with
    | none => rfl
    | expr => simp
    | str => simp
    | num => simp
    | record f => simp only [Val.size] at hn; exact hd f (by omega)
    | dict f => simp only [Val.size] at hn; exact hd f (by omega)
    | list l =>
      simp only [Val.size] at hn
      simp only [iterEq, elements, beq_self_eq_true, Bool.true_and, List.all_eq_true]
      rintro ⟨x, y⟩ hp
      obtain ⟨i, hi, he⟩ := List.getElem_of_mem hp
      simp only [List.getElem_zip, Prod.mk.injEq] at he
      obtain ⟨rfl, rfl⟩ := he
      have hi2 : i < l.length := by rw [List.length_zip] at hi; omega
      have hm : l[i] ∈ l := List.getElem_mem _
      have := size_list hm
      exact ih l[i] (by omega)

/-- On values of one type, structural equality is equality of everything that can be observed: the
same keys, lengths, strings, numbers and expressions along every path. -/
theorem C15_same_observations_partial {a b : Val E} {t : Ty} (ha : HasType a t) (hb : HasType b t) :
    structEq a b = true ↔ ∀ p, observe a p = observe b p := by
  induction ha generalizing b with
  | expr e =>
    cases hb with | expr e' =>
    rw [structEq_unfold]
    simp only [beq_iff_eq]
    constructor
    · rintro rfl p; rfl
    · intro h; simpa [observe, leaf] using h []
  | str e =>
    cases hb with | str e' =>
    rw [structEq_unfold]
    simp only [beq_iff_eq]
    constructor
    · rintro rfl p; rfl
    · intro h; simpa [observe, leaf] using h []
  | num e =>
    cases hb with | num e' =>
    rw [structEq_unfold]
    simp only [beq_iff_eq]
    constructor
    · rintro rfl p; rfl
    · intro h; simpa [observe, leaf] using h []
  | none t =>
    rw [structEq_unfold]
    constructor
    · intro h
      cases b <;> first | (intro p; rfl) | simp at h
    · intro h
      have := h []
      cases b <;> first | rfl | simp [observe, leaf] at this
  | some h ih =>
    cases hb with
    | none t =>
      rw [structEq_unfold]
      rename_i v _
      constructor
      · intro h
        cases v <;> first | (intro p; rfl) | simp at h
      · intro h
        have := h []
        cases v <;> first | rfl | simp [observe, leaf] at this
    | some hb => exact ih hb
  | @list l t hl ih =>
    cases hb with | @list l' _ hl' =>
    rw [structEq_unfold]
    simp only [iterEq, elements, Bool.and_eq_true, beq_iff_eq, List.all_eq_true]
    constructor
    · rintro ⟨hlen, hall⟩ p
      cases p with
      | nil => simp [observe, leaf, hlen]
      | cons s p =>
        simp only [observe]
        cases s with
        | key k => rfl
        | pos i =>
          simp only [child]
          by_cases hi : i < l.length
          · rw [List.getElem?_eq_getElem hi, List.getElem?_eq_getElem (hlen ▸ hi)]
            simp only [Option.bind_some]
            refine (ih _ (List.getElem_mem hi) (hl' _ (List.getElem_mem (hlen ▸ hi)))).1 ?_ p
            refine hall (l[i], l'[i]'(hlen ▸ hi)) ?_
            rw [List.mem_iff_getElem]
            exact ⟨i, by rw [List.length_zip]; omega, by simp⟩
          · rw [List.getElem?_eq_none (by omega), List.getElem?_eq_none (by omega)]
    · intro h
      have hlen : l.length = l'.length := by simpa [observe, leaf] using h []
      refine ⟨hlen, ?_⟩
      rintro ⟨x, y⟩ hp
      obtain ⟨i, hi, he⟩ := List.getElem_of_mem hp
      rw [List.length_zip] at hi
      simp only [List.getElem_zip, Prod.mk.injEq] at he
      obtain ⟨rfl, rfl⟩ := he
      have hi1 : i < l.length := by omega
      have hi2 : i < l'.length := by omega
      refine (ih _ (List.getElem_mem hi1) (hl' _ (List.getElem_mem hi2))).2 fun p => ?_
      have := h (.pos i :: p)
      simpa [observe, child, hi1, hi2] using this
  | @record f t hf ih =>
    cases hb with | @record g _ hg =>
    rw [structEq_unfold]
    simp only [dictEq_iff]
    exact maps_observe f g t (fun kv h b hb => ih kv h hb) hg (.record f) (.record g) (fun k => rfl) (fun k => rfl) (fun _ => rfl) (fun _ => rfl) rfl
  | @dict f t hf ih =>
    cases hb with | @dict g _ hg =>
    rw [structEq_unfold]
    simp only [dictEq_iff]
    exact maps_observe f g t (fun kv h b hb => ih kv h hb) hg (.dict f) (.dict g) (fun k => rfl) (fun k => rfl) (fun _ => rfl) (fun _ => rfl) rfl
where
  maps_observe (f g : List (Key × Val E)) (t : Key → Ty)
      (ih : ∀ kv ∈ f, ∀ b : Val E, HasType b (t kv.1) → (structEq kv.2 b = true ↔ ∀ p, observe kv.2 p = observe b p))
      (hg : ∀ kv ∈ g, HasType kv.2 (t kv.1)) (a b : Val E)
      (ha : ∀ k, child a (.key k) = lookup k f) (hb : ∀ k, child b (.key k) = lookup k g)
      (ha' : ∀ i, child a (.pos i) = none) (hb' : ∀ i, child b (.pos i) = none) (hl : leaf a = leaf b) :
      (∀ k, (lookup k f = none ∧ lookup k g = none) ∨ ∃ x y, lookup k f = some x ∧ lookup k g = some y ∧ structEq x y = true) ↔
      ∀ p, observe a p = observe b p := by
    constructor
    · intro h p
      cases p with
      | nil => simp [observe, hl]
      | cons s p =>
        simp only [observe]
        cases s with
        | pos i => rw [ha', hb']
        | key k =>
          rw [ha, hb]
          rcases h k with ⟨h1, h2⟩ | ⟨x, y, h1, h2, h3⟩
          · rw [h1, h2]
          · rw [h1, h2]
            simp only [Option.bind_some]
            exact (ih _ (lookup_mem h1) y (hg _ (lookup_mem h2))).1 h3 p
    · intro h k
      cases h1 : lookup k f with
      | none =>
        cases h2 : lookup k g with
        | none => exact .inl ⟨rfl, rfl⟩
        | some y => have := h [.key k]; simp [observe, ha, hb, h1, h2] at this
      | some x =>
        cases h2 : lookup k g with
        | none => have := h [.key k]; simp [observe, ha, hb, h1, h2] at this
        | some y =>
          refine .inr ⟨x, y, rfl, rfl, (ih _ (lookup_mem h1) y (hg _ (lookup_mem h2))).2 fun p => ?_⟩
          have := h (.key k :: p)
          simpa [observe, ha, hb, h1, h2] using this

/-- Hence it is transitive on values of one type. The full claim has no types. -/
theorem C15_transitive_partial {a b c : Val E} {t : Ty} (ha : HasType a t) (hb : HasType b t) (hc : HasType c t)
    (h1 : structEq a b = true) (h2 : structEq b c = true) : structEq a c = true := by
  rw [C15_same_observations_partial ha hb] at h1
  rw [C15_same_observations_partial hb hc] at h2
  rw [C15_same_observations_partial ha hc]
  exact fun p => (h1 p).trans (h2 p)

/-- A ghost-map item and the metadata of a state are typed values. -/
example : HasType (.record [(.name "key".toList, .expr 1), (.name "value".toList, .list [.expr 2, .expr 3]), (.name "present".toList, .none)] : Val Nat)
    (.record fun k => if k = .name "key".toList then .expr else if k = .name "value".toList then .list .expr else .opt .expr) := by
  refine .record ?_
  intro kv h
  simp only [List.mem_cons, List.not_mem_nil, or_false] at h
  rcases h with rfl | rfl | rfl
  · exact .expr 1
  · refine .list ?_
    intro v hv
    simp only [List.mem_cons, List.not_mem_nil, or_false] at hv
    rcases hv with rfl | rfl
    · exact .expr 2
    · exact .expr 3
  · exact .none _

/-- Without types, structural equality is not transitive: two named tuples with different field
names both equal the plain tuple of their values. -/
theorem C15_not_transitive : ∃ a b c : Val Nat, structEq a b = true ∧ structEq b c = true ∧ structEq a c = false := by
  refine ⟨.record [(.name ['x'], .str ['a'])], .list [.str ['a']], .record [(.name ['y'], .str ['a'])], ?_, ?_, ?_⟩ <;> decide

/-- Nor does it imply equal values: a string equals the list of its characters. -/
theorem C15_string_equals_list : ∃ a b : Val Nat, structEq a b = true ∧ observe a [] ≠ observe b [] := by
  refine ⟨.str ['a', 'b'], .list [.str ['a'], .str ['b']], by decide, by simp [observe, leaf]⟩

/-- Merging metadata: accepted only if every state's metadata has the same observations, so keeping
the first one's loses nothing. -/
theorem C15_metadata_merge (self : Val E) (others : List (Val E)) (t : Ty) (hs : HasType self t) (ho : ∀ o ∈ others, HasType o t) :
    metadataMerge self others = true ↔ ∀ o ∈ others, ∀ p, observe o p = observe self p := by
  simp only [metadataMerge, List.all_eq_true]
  exact forall₂_congr fun o h => C15_same_observations_partial (ho o h) hs

/-! ### structural_diff -/

theorem diffLoop_eq {T : Type} (eq : T → T → Bool) (right left : List T) :
    diffLoop eq right left = (left.filter (fun x => !right.any (eq x)), left.filter (fun x => right.any (eq x)), left.filter (fun x => right.any (eq x))) := by
  induction left with
  | nil => rfl
  | cons x left ih =>
    simp only [diffLoop, ih]
    cases h : right.any (eq x) <;> simp [h]

open Classical in
/-- When structural equality is the equality of dictionary keys (as for hash-consed expressions and
named tuples of them), structural_diff partitions: left-only, common and right-only elements. -/
theorem C15_diff_partial {T : Type} (eq : T → T → Bool) (left right : List T) (heq : ∀ x ∈ left, ∀ y ∈ right, eq x y = true ↔ x = y) (hnd : right.Nodup) :
    structDiff eq left right = (left.filter (fun x => decide (x ∉ right)), left.filter (fun x => decide (x ∈ right)), right.filter (fun x => decide (x ∉ left))) := by
  have hany : ∀ x ∈ left, right.any (eq x) = decide (x ∈ right) := by
    intro x hx
    rw [Bool.eq_iff_iff, List.any_eq_true, decide_eq_true_iff]
    constructor
    · rintro ⟨y, hy, h⟩; rw [(heq x hx y hy).1 h]; exact hy
    · intro h; exact ⟨x, h, (heq x hx x h).2 rfl⟩
  simp only [structDiff, diffLoop_eq, Prod.mk.injEq]
  refine ⟨?_, ?_, ?_⟩
  · apply List.filter_congr
    intro x hx
    rw [hany x hx]; simp
  · exact List.filter_congr hany
  · rw [List.dedup_eq_self.2 hnd]
    apply List.filter_congr
    intro x hx
    congr 1
    rw [List.mem_filter, eq_iff_iff, not_iff_not]
    constructor
    · exact fun h => h.1
    · intro h
      exact ⟨h, by rw [hany x h]; simpa using hx⟩

example : (∀ x ∈ [1, 2, 3], ∀ y ∈ [3, 4], (x == y) = true ↔ x = y) ∧ [3, 4].Nodup := by decide

/-- In general the claim is false: line 138 marks the left element instead of the matching right
one, so a right element that has a structural match is still reported as right-only. -/
theorem C15_diff_wrong : ∃ left right : List (Val Nat), right.Nodup ∧ (∀ x ∈ left, ∀ y ∈ right, structEq x y = true) ∧
    (structDiff structEq left right).2.1 = left ∧ (structDiff structEq left right).2.2 = right ∧ right ≠ [] := by
  have hs : structEq (.str ['a']) (.list [.str ['a']] : Val Nat) = true := by decide
  refine ⟨[.str ['a']], [.list [.str ['a']]], by simp, by simpa using hs, ?_, ?_, by simp⟩
  · simp [structDiff, diffLoop_eq, hs]
  · simp [structDiff, diffLoop_eq, hs]

end Verif.Props
