/-
C37, C38: symbolic execution of specifications.
-/
import Verif.Tool.Symbex
import Mathlib.Data.List.TakeWhile
import Mathlib.Tactic.Ring

set_option autoImplicit false

namespace Verif.Props

open Verif.Tool.Symbex

variable {A O : Type}

/-! ### Specification: what a run on concrete values does -/

/-- The specification succeeds on concrete values, with the object `a i` given to the i-th choice
(none: no object). -/
def Succeeds (ρ : A) (a : Nat → Option O) : Prog A O → Nat → Prop
  | .done, _ => True
  | .fail _, _ => False
  | .branch f k, d => Succeeds ρ a (k (f ρ)) d
  | .choose _ k, d =>
    match a d with
    | none => False
    | some o => Succeeds ρ a (k o) (d + 1)

/-- The specification raises an exception on concrete values, using only objects given by `a`. -/
def Fails (ρ : A) (a : Nat → Option O) : Prog A O → Nat → Prop
  | .done, _ => False
  | .fail _, _ => True
  | .branch f k, d => Fails ρ a (k (f ρ)) d
  | .choose _ k, d =>
    match a d with
    | none => False
    | some o => Fails ρ a (k o) (d + 1)

/-- The specification makes no choice. -/
def NoChoose : Prog A O → Prop
  | .done => True
  | .fail _ => True
  | .branch _ k => ∀ b, NoChoose (k b)
  | .choose _ _ => False

/-- The i-th choice always offers the candidates `L i`, and there are at most `D` choices. -/
def Uniform (L : Nat → List O) (D : Nat) : Prog A O → Nat → Prop
  | .done, _ => True
  | .fail _, _ => True
  | .branch _ k, d => ∀ b, Uniform L D (k b) d
  | .choose cs k, d => cs = L d ∧ cs ≠ [] ∧ d < D ∧ ∀ o, Uniform L D (k o) (d + 1)

/-- No exception of a built-in class is raised. -/
def NoBuiltin : Prog A O → Prop
  | .done => True
  | .fail b => b = false
  | .branch _ k => ∀ b, NoBuiltin (k b)
  | .choose _ k => ∀ o, NoBuiltin (k o)

theorem noChoose_uniform (L : Nat → List O) : (p : Prog A O) → NoChoose p → ∀ d, Uniform L 0 p d
  | .done, _, _ => trivial
  | .fail _, _, _ => trivial
  | .branch _ k, h, d => fun b => noChoose_uniform L (k b) (h b) d

theorem not_succeeds_of_fails {ρ : A} {a a' : Nat → Option O} (h : ∀ i x, a i = some x → a' i = some x) :
    (p : Prog A O) → (d : Nat) → Fails ρ a p d → ¬ Succeeds ρ a' p d
  | .done, _, hf, _ => hf
  | .fail _, _, _, hs => hs
  | .branch f k, d, hf, hs => not_succeeds_of_fails h (k (f ρ)) d hf hs
  | .choose cs k, d, hf, hs => by
    simp only [Fails] at hf
    simp only [Succeeds] at hs
    cases had : a d with
    | none => rw [had] at hf; exact hf
    | some o =>
      rw [had] at hf
      rw [h d o had] at hs
      exact not_succeeds_of_fails h (k o) (d + 1) hf hs

/-! ### Depth-first enumeration of the paths -/

/-- The paths in the order of exploration and the first exception with its choice index. -/
noncomputable def dfs (C : A → Prop) (a : Nat → Option O) : Prog A O → Branches A → Nat →
    List (Branches A) × Option (Bool × Nat)
  | .done, path, _ => ([path], none)
  | .fail b, _, d => ([], some (b, d))
  | .branch f k, path, d =>
    match canBe C path f true, canBe C path f false with
    | true, false => dfs C a (k true) path d
    | false, true => dfs C a (k false) path d
    | false, false => ([], some (false, d))
    | true, true =>
      match dfs C a (k true) (path ++ [(f, true)]) d with
      | (ps, some e) => (ps, some e)
      | (ps, none) =>
        (ps ++ (dfs C a (k false) (path ++ [(f, false)]) d).1, (dfs C a (k false) (path ++ [(f, false)]) d).2)
  | .choose _ k, path, d =>
    match a d with
    | none => ([], some (true, d))
    | some o => dfs C a (k o) path (d + 1)

/-- Feasible: satisfies the constraints and follows the path. -/
def On (C : A → Prop) (path : Branches A) (ρ : A) : Prop := C ρ ∧ follows ρ path

theorem follows_append (ρ : A) (p q : Branches A) : follows ρ (p ++ q) ↔ follows ρ p ∧ follows ρ q := by
  simp only [follows, List.mem_append]
  constructor
  · intro h; exact ⟨fun x hx => h x (Or.inl hx), fun x hx => h x (Or.inr hx)⟩
  · rintro ⟨h1, h2⟩ x (hx | hx)
    · exact h1 x hx
    · exact h2 x hx

theorem on_append (C : A → Prop) (p : Branches A) (f : A → Bool) (v : Bool) (ρ : A) :
    On C (p ++ [(f, v)]) ρ ↔ On C p ρ ∧ f ρ = v := by
  simp only [On, follows_append, and_assoc]
  simp [follows]

theorem canBe_true {C : A → Prop} {path : Branches A} {f : A → Bool} {v : Bool} :
    canBe C path f v = true ↔ ∃ ρ, On C path ρ ∧ f ρ = v := by
  simp [canBe, On, and_assoc]

theorem canBe_false {C : A → Prop} {path : Branches A} {f : A → Bool} {v : Bool} :
    canBe C path f v = false ↔ ∀ ρ, On C path ρ → f ρ = !v := by
  constructor
  · intro h ρ hρ
    by_contra hne
    have : f ρ = v := by cases hf : f ρ <;> cases v <;> simp_all
    have := canBe_true.mpr ⟨ρ, hρ, this⟩
    rw [h] at this; cases this
  · intro h
    cases hc : canBe C path f v with
    | false => rfl
    | true =>
      obtain ⟨ρ, h1, h2⟩ := canBe_true.mp hc
      have := h ρ h1
      rw [h2] at this; cases v <;> cases this

/-- What the enumeration gives on success. -/
structure GoodPaths (C : A → Prop) (path : Branches A) (ps : List (Branches A)) : Prop where
  feasible : ∀ p ∈ ps, ∃ ρ, C ρ ∧ follows ρ p
  extend : ∀ p ∈ ps, path <+: p
  cover : ∀ ρ, On C path ρ → ∃ p ∈ ps, follows ρ p
  exclusive : ps.Pairwise fun p q => ∀ ρ, ¬(follows ρ p ∧ follows ρ q)

theorem dfs_ok {C : A → Prop} {a : Nat → Option O} : (p : Prog A O) → (path : Branches A) → (d : Nat) → (∃ ρ, On C path ρ) →
    (dfs C a p path d).2 = none →
    GoodPaths C path (dfs C a p path d).1 ∧ ∀ ρ, On C path ρ → Succeeds ρ a p d
  | .done, path, d, hf, _ => by
    refine ⟨⟨?_, ?_, ?_, ?_⟩, fun _ _ => trivial⟩
    · intro p hp; simp only [dfs, List.mem_singleton] at hp; subst hp; exact hf
    · intro p hp; simp only [dfs, List.mem_singleton] at hp; subst hp; exact List.prefix_refl _
    · intro ρ hρ; exact ⟨path, by simp [dfs], hρ.2⟩
    · simp [dfs]
  | .fail b, path, d, _, h => by simp [dfs] at h
  | .branch f k, path, d, hf, h => by
    simp only [dfs] at h ⊢
    cases ht : canBe C path f true <;> cases hfl : canBe C path f false <;> rw [ht, hfl] at h <;> simp only at h ⊢
    · cases h
    · obtain ⟨g, s⟩ := dfs_ok (k false) path d hf h
      refine ⟨g, fun ρ hρ => ?_⟩
      simp only [Succeeds]
      rw [canBe_false.mp ht ρ hρ]; exact s ρ hρ
    · obtain ⟨g, s⟩ := dfs_ok (k true) path d hf h
      refine ⟨g, fun ρ hρ => ?_⟩
      simp only [Succeeds]
      rw [canBe_false.mp hfl ρ hρ]; exact s ρ hρ
    · cases h1 : dfs C a (k true) (path ++ [(f, true)]) d with
      | mk ps e =>
        rw [h1] at h
        cases e with
        | some e => simp at h
        | none =>
          simp only at h ⊢
          have et : ∃ ρ, On C (path ++ [(f, true)]) ρ := by
            obtain ⟨ρ, h2, h3⟩ := canBe_true.mp ht; exact ⟨ρ, (on_append ..).mpr ⟨h2, h3⟩⟩
          have ef : ∃ ρ, On C (path ++ [(f, false)]) ρ := by
            obtain ⟨ρ, h2, h3⟩ := canBe_true.mp hfl; exact ⟨ρ, (on_append ..).mpr ⟨h2, h3⟩⟩
          obtain ⟨g1, s1⟩ := dfs_ok (k true) (path ++ [(f, true)]) d et (by rw [h1])
          obtain ⟨g2, s2⟩ := dfs_ok (k false) (path ++ [(f, false)]) d ef h
          rw [h1] at g1
          simp only at g1
          refine ⟨⟨?_, ?_, ?_, ?_⟩, ?_⟩
          · intro p hp
            rcases List.mem_append.mp hp with hp | hp
            · exact g1.feasible p hp
            · exact g2.feasible p hp
          · intro p hp
            rcases List.mem_append.mp hp with hp | hp
            · exact (List.prefix_append _ _).trans (g1.extend p hp)
            · exact (List.prefix_append _ _).trans (g2.extend p hp)
          · intro ρ hρ
            cases hb : f ρ with
            | true =>
              obtain ⟨p, hp, hfo⟩ := g1.cover ρ ((on_append ..).mpr ⟨hρ, hb⟩)
              exact ⟨p, List.mem_append.mpr (Or.inl hp), hfo⟩
            | false =>
              obtain ⟨p, hp, hfo⟩ := g2.cover ρ ((on_append ..).mpr ⟨hρ, hb⟩)
              exact ⟨p, List.mem_append.mpr (Or.inr hp), hfo⟩
          · refine List.pairwise_append.mpr ⟨g1.exclusive, g2.exclusive, ?_⟩
            intro p hp q hq ρ ⟨h3, h4⟩
            have e1 := h3 (f, true) ((g1.extend p hp).subset (by simp))
            have e2 := h4 (f, false) ((g2.extend q hq).subset (by simp))
            simp only at e1 e2
            rw [e1] at e2; cases e2
          · intro ρ hρ
            simp only [Succeeds]
            cases hb : f ρ with
            | true => exact s1 ρ ((on_append ..).mpr ⟨hρ, hb⟩)
            | false => exact s2 ρ ((on_append ..).mpr ⟨hρ, hb⟩)
  | .choose cs k, path, d, hf, h => by
    simp only [dfs, Succeeds] at h ⊢
    cases had : a d with
    | none => rw [had] at h; simp at h
    | some o => rw [had] at h; exact dfs_ok (k o) path (d + 1) hf h

/-- An assignment of objects cut off at a choice index. -/
def cut (a : Nat → Option O) (e : Nat) (i : Nat) : Option O := if i < e then a i else none

theorem dfs_err_ge {C : A → Prop} {a : Nat → Option O} : (p : Prog A O) → (path : Branches A) → (d : Nat) → (b : Bool) → (e : Nat) →
    (dfs C a p path d).2 = some (b, e) → d ≤ e
  | .done, path, d, b, e, h => by simp [dfs] at h
  | .fail b', path, d, b, e, h => by simp [dfs] at h; omega
  | .branch f k, path, d, b, e, h => by
    simp only [dfs] at h
    cases ht : canBe C path f true <;> cases hfl : canBe C path f false <;> rw [ht, hfl] at h <;> simp only at h
    · simp at h; omega
    · exact dfs_err_ge (k false) path d b e h
    · exact dfs_err_ge (k true) path d b e h
    · cases h1 : dfs C a (k true) (path ++ [(f, true)]) d with
      | mk ps e' =>
        rw [h1] at h
        cases e' with
        | some e' => simp only at h; exact dfs_err_ge (k true) _ d b e (by rw [h1]; exact h)
        | none => simp only at h; exact dfs_err_ge (k false) _ d b e h
  | .choose cs k, path, d, b, e, h => by
    simp only [dfs] at h
    cases had : a d with
    | none => rw [had] at h; simp at h; omega
    | some o => rw [had] at h; have := dfs_err_ge (k o) path (d + 1) b e h; omega

theorem dfs_err {C : A → Prop} {a : Nat → Option O} {b : Bool} : (p : Prog A O) → (path : Branches A) → (d : Nat) → (e : Nat) →
    (∃ ρ, On C path ρ) → (b = false ∨ NoChoose p) → (dfs C a p path d).2 = some (b, e) →
    ∃ ρ, On C path ρ ∧ Fails ρ (cut a e) p d
  | .done, path, d, e, _, _, h => by simp [dfs] at h
  | .fail _, path, d, e, hf, _, h => by
    obtain ⟨ρ, hρ⟩ := hf; exact ⟨ρ, hρ, trivial⟩
  | .branch f k, path, d, e, hf, hb, h => by
    have hb : ∀ v, b = false ∨ NoChoose (k v) := fun v => hb.imp id (fun h => h v)
    simp only [dfs] at h
    cases ht : canBe C path f true <;> cases hfl : canBe C path f false <;> rw [ht, hfl] at h <;> simp only at h
    · obtain ⟨ρ, hρ⟩ := hf
      have e1 := canBe_false.mp ht ρ hρ
      have e2 := canBe_false.mp hfl ρ hρ
      rw [e1] at e2; cases e2
    · obtain ⟨ρ, h1, h2⟩ := dfs_err (k false) path d e hf (hb false) h
      refine ⟨ρ, h1, ?_⟩
      simp only [Fails]; rw [canBe_false.mp ht ρ h1]; exact h2
    · obtain ⟨ρ, h1, h2⟩ := dfs_err (k true) path d e hf (hb true) h
      refine ⟨ρ, h1, ?_⟩
      simp only [Fails]; rw [canBe_false.mp hfl ρ h1]; exact h2
    · have et : ∃ ρ, On C (path ++ [(f, true)]) ρ := by
        obtain ⟨ρ, h2, h3⟩ := canBe_true.mp ht; exact ⟨ρ, (on_append ..).mpr ⟨h2, h3⟩⟩
      have ef : ∃ ρ, On C (path ++ [(f, false)]) ρ := by
        obtain ⟨ρ, h2, h3⟩ := canBe_true.mp hfl; exact ⟨ρ, (on_append ..).mpr ⟨h2, h3⟩⟩
      cases h1 : dfs C a (k true) (path ++ [(f, true)]) d with
      | mk ps e' =>
        rw [h1] at h
        cases e' with
        | some e' =>
          simp only at h
          obtain ⟨ρ, h2, h3⟩ := dfs_err (k true) _ d e et (hb true) (by rw [h1]; exact h)
          obtain ⟨h2, h4⟩ := (on_append ..).mp h2
          exact ⟨ρ, h2, by simp only [Fails]; rw [h4]; exact h3⟩
        | none =>
          simp only at h
          obtain ⟨ρ, h2, h3⟩ := dfs_err (k false) _ d e ef (hb false) h
          obtain ⟨h2, h4⟩ := (on_append ..).mp h2
          exact ⟨ρ, h2, by simp only [Fails]; rw [h4]; exact h3⟩
  | .choose cs k, path, d, e, hf, hb, h => by
    simp only [dfs] at h
    cases had : a d with
    | none =>
      rw [had] at h
      simp only [Option.some.injEq, Prod.mk.injEq] at h
      rcases hb with hb | hb
      · rw [hb] at h; simp at h
      · exact absurd hb (by simp [NoChoose])
    | some o =>
      rw [had] at h
      have hge := dfs_err_ge (k o) path (d + 1) b e h
      obtain ⟨ρ, h1, h2⟩ := dfs_err (k o) path (d + 1) e hf (hb.imp id (fun h => absurd h (by simp [NoChoose]))) h
      refine ⟨ρ, h1, ?_⟩
      simp only [Fails, cut, if_pos (show d < e by omega), had]
      exact h2

/-! ### The choices of one attempt -/

variable [DecidableEq O]

/-- The candidate lists, with those used by earlier choices dropped, when starting with `ch`. -/
def upto (L : Nat → List O) (ch : List (List O)) : Nat → List (List O)
  | 0 => []
  | n + 1 => upto L ch n ++ [dedupe (upto L ch n) (ch[n]?.getD (L n))]

theorem upto_length (L : Nat → List O) (ch : List (List O)) (n : Nat) : (upto L ch n).length = n := by
  induction n with
  | zero => rfl
  | succ n ih => simp [upto, ih]

/-- The i-th candidate list. -/
def comp (L : Nat → List O) (ch : List (List O)) (i : Nat) : List O := dedupe (upto L ch i) (ch[i]?.getD (L i))

theorem upto_getElem? (L : Nat → List O) (ch : List (List O)) (n i : Nat) (h : i < n) : (upto L ch n)[i]? = some (comp L ch i) := by
  induction n with
  | zero => omega
  | succ n ih =>
    simp only [upto]
    by_cases hi : i < n
    · rw [List.getElem?_append_left (by rw [upto_length]; exact hi)]; exact ih hi
    · have : i = n := by omega
      subst this
      rw [List.getElem?_append_right (by rw [upto_length])]
      simp [upto_length, comp]

theorem upto_take (L : Nat → List O) (ch : List (List O)) (n m : Nat) (h : m ≤ n) : (upto L ch n).take m = upto L ch m := by
  induction n with
  | zero => have : m = 0 := by omega
            subst this; rfl
  | succ n ih =>
    by_cases hm : m ≤ n
    · simp only [upto]
      rw [List.take_append_of_le_length (by rw [upto_length]; exact hm)]
      exact ih hm
    · have : m = n + 1 := by omega
      subst this
      exact List.take_of_length_le (by rw [upto_length])

theorem dedupe_idem (prev : List (List O)) (l : List O) : dedupe prev (dedupe prev l) = dedupe prev l := by
  unfold dedupe
  generalize (fun o => prev.any fun l' => l'.head? == some o) = q
  induction l with
  | nil => rfl
  | cons a l ih =>
    by_cases h : q a
    · simp [h, ih]
    · simp [h]

/-- The objects chosen. -/
def chosen (L : Nat → List O) (ch : List (List O)) (i : Nat) : Option O := (comp L ch i).head?

/-- All but the last list are free of leading duplicates. -/
def Clean (L : Nat → List O) (ch : List (List O)) : Prop := ch.take (ch.length - 1) = upto L ch (ch.length - 1)

/-- The choices at any time of an attempt started with `ch0`. -/
def InvC (L : Nat → List O) (D : Nat) (ch0 ch : List (List O)) : Prop :=
  ch = ch0 ∨ ∃ m, ch0.length ≤ m ∧ m ≤ D ∧ ch = upto L ch0 m

/-- Likewise, with no empty list. -/
def Inv (L : Nat → List O) (D : Nat) (ch0 ch : List (List O)) : Prop := InvC L D ch0 ch ∧ ∀ l ∈ ch, l ≠ []

/-- The first `d` choices were made. -/
def Vis (L : Nat → List O) (ch0 : List (List O)) (d : Nat) (ch : List (List O)) : Prop :=
  d ≤ ch.length ∧ ch.take d = upto L ch0 d

theorem choose_step {L : Nat → List O} {D : Nat} {ch0 ch : List (List O)} {d : Nat} (hc : Clean L ch0) (hlen : ch0.length ≤ D)
    (hi : InvC L D ch0 ch) (hv : Vis L ch0 d ch) (hd : d < D) :
    dedupe (ch.take d) (ch[d]?.getD (L d)) = comp L ch0 d ∧
    InvC L D ch0 (ch.take d ++ comp L ch0 d :: ch.drop (d + 1)) ∧
    Vis L ch0 (d + 1) (ch.take d ++ comp L ch0 d :: ch.drop (d + 1)) := by
  have hv' : Vis L ch0 (d + 1) (ch.take d ++ comp L ch0 d :: ch.drop (d + 1)) := by
    have hl : (ch.take d).length = d := by rw [List.length_take]; have := hv.1; omega
    refine ⟨by simp [hl], ?_⟩
    rw [List.take_append, hl]
    have : d + 1 - d = 1 := by omega
    rw [this, List.take_take, show min (d + 1) d = d by omega, hv.2]
    simp [upto, comp]
  rcases hi with rfl | ⟨m, hm1, hm2, rfl⟩
  · refine ⟨by rw [hv.2]; rfl, ?_, hv'⟩
    by_cases hlast : d + 1 < ch.length
    · left
      have hget : ch[d]? = some (comp L ch d) := by
        have := upto_getElem? L ch (ch.length - 1) d (by omega)
        rw [← hc, List.getElem?_take, if_pos (by omega)] at this
        exact this
      have := List.getElem?_eq_some_iff.mp hget
      obtain ⟨hlt, heq⟩ := this
      rw [← heq]
      simp [List.take_append_drop]
    · right
      have hd2 : ch.drop (d + 1) = [] := List.drop_eq_nil_of_le (by omega)
      refine ⟨d + 1, by omega, by omega, ?_⟩
      rw [hd2, hv.2]; rfl
  · rw [hv.2]
    have hl := hv.1
    rw [upto_length] at hl
    by_cases hdm : d < m
    · have hget := upto_getElem? L ch0 m d hdm
      refine ⟨?_, ?_, by have h := hv'; rw [hv.2] at h; exact h⟩
      · rw [hget]; simp only [Option.getD_some, comp]; exact dedupe_idem _ _
      · right
        refine ⟨m, hm1, hm2, ?_⟩
        obtain ⟨hlt, heq⟩ := List.getElem?_eq_some_iff.mp hget
        have := hv.2
        rw [← this, ← heq]
        simp [List.take_append_drop]
    · have hdm : d = m := by omega
      subst hdm
      have hnone : (upto L ch0 d)[d]? = none := List.getElem?_eq_none (by rw [upto_length])
      have hraw : ch0[d]? = none := List.getElem?_eq_none hm1
      refine ⟨?_, ?_, by have h := hv'; rw [hv.2] at h; exact h⟩
      · rw [hnone]; simp only [comp, hraw]
      · right
        refine ⟨d + 1, by omega, by omega, ?_⟩
        rw [List.drop_eq_nil_of_le (by rw [upto_length]; omega)]
        rfl

/-! ### The exploration is the enumeration -/

/-- Continuing after a path was completed: symbex.py:42-48. -/
noncomputable def finish (C : A → Prop) (root : Prog A O) (n : Nat) (br : Branches A) (ch : List (List O)) (acc : List (Branches A)) :
    Option (Out A O (List (Branches A))) :=
  match (prune br).getLast? with
  | none => some (.ok acc ch)
  | some x => explore C root n ((prune br).dropLast ++ [(x.1, false)]) ch acc

theorem prune_true (br : Branches A) (f : A → Bool) : prune (br ++ [(f, true)]) = br ++ [(f, true)] := by
  simp [prune]

theorem prune_false (br : Branches A) (f : A → Bool) : prune (br ++ [(f, false)]) = prune br := by
  simp [prune]

/-- The run from the root gets to `p` after the branches `path` and `d` choices, whatever follows. -/
def RunsTo (L : Nat → List O) (D : Nat) (ch0 : List (List O)) (C : A → Prop) (root p : Prog A O) (path : Branches A) (d : Nat) : Prop :=
  ∀ ch, Inv L D ch0 ch → ∃ ch1, Inv L D ch0 ch1 ∧ Vis L ch0 d ch1 ∧
    ∀ ext, run C root 0 (path ++ ext) 0 ch = run C p path.length (path ++ ext) d ch1

/-- The loop explores what the enumeration gives. -/
def Explores (L : Nat → List O) (D : Nat) (ch0 : List (List O)) (C : A → Prop) (root : Prog A O) (path : Branches A)
    (r : List (Branches A) × Option (Bool × Nat)) : Prop :=
  ∀ ch acc, Inv L D ch0 ch → ∃ k ch', Inv L D ch0 ch' ∧
    match r with
    | (ps, none) => ∀ n, explore C root (n + k) path ch acc = finish C root n path ch' (acc ++ ps)
    | (_, some (b, e)) => Vis L ch0 e ch' ∧ ∀ n, explore C root (n + k) path ch acc = some (.err b e ch')

theorem explore_congr (C : A → Prop) (root : Prog A O) (br br' : Branches A) (ch : List (List O)) (acc : List (Branches A))
    (h : run C root 0 br 0 ch = run C root 0 br' 0 ch) (n : Nat) : explore C root n br ch acc = explore C root n br' ch acc := by
  cases n with
  | zero => rfl
  | succ n => simp only [explore, h]

theorem explores {L : Nat → List O} {D : Nat} {ch0 : List (List O)} (hc : Clean L ch0) (hlen : ch0.length ≤ D) (C : A → Prop)
    (root : Prog A O) : (p : Prog A O) → (path : Branches A) → (d : Nat) → Uniform L D p d →
    RunsTo L D ch0 C root p path d → Explores L D ch0 C root path (dfs C (chosen L ch0) p path d)
  | .done, path, d, _, hr => by
    intro ch acc hi
    obtain ⟨ch1, h1, h2, h3⟩ := hr ch hi
    refine ⟨1, ch1, h1, fun n => ?_⟩
    have := h3 []
    simp only [List.append_nil, run] at this
    simp only [explore, this, finish]
    cases (prune path).getLast? <;> rfl
  | .fail b, path, d, _, hr => by
    intro ch acc hi
    obtain ⟨ch1, h1, h2, h3⟩ := hr ch hi
    refine ⟨1, ch1, h1, h2, fun n => ?_⟩
    have := h3 []
    simp only [List.append_nil, run] at this
    simp only [explore, this]
  | .branch f k, path, d, hu, hr => by
    have htake : ∀ ext : Branches A, (path ++ ext).take path.length = path := by simp
    simp only [dfs]
    cases ht : canBe C path f true <;> cases hfl : canBe C path f false <;> simp only
    · intro ch acc hi
      obtain ⟨ch1, h1, h2, h3⟩ := hr ch hi
      refine ⟨1, ch1, h1, h2, fun n => ?_⟩
      have := h3 []
      rw [run, htake, ht, hfl] at this
      simp only [List.append_nil] at this
      simp only [explore, this]
    · apply explores hc hlen C root (k false) path d (hu false)
      intro ch hi
      obtain ⟨ch1, h1, h2, h3⟩ := hr ch hi
      refine ⟨ch1, h1, h2, fun ext => ?_⟩
      rw [h3 ext, run, htake, ht, hfl]
    · apply explores hc hlen C root (k true) path d (hu true)
      intro ch hi
      obtain ⟨ch1, h1, h2, h3⟩ := hr ch hi
      refine ⟨ch1, h1, h2, fun ext => ?_⟩
      rw [h3 ext, run, htake, ht, hfl]
    · have hforced : ∀ v, RunsTo L D ch0 C root (k v) (path ++ [(f, v)]) d := by
        intro v ch hi
        obtain ⟨ch1, h1, h2, h3⟩ := hr ch hi
        refine ⟨ch1, h1, h2, fun ext => ?_⟩
        rw [List.append_assoc, h3, run, htake, ht, hfl]
        simp
      have hsame : ∀ ch, Inv L D ch0 ch → run C root 0 path 0 ch = run C root 0 (path ++ [(f, true)]) 0 ch := by
        intro ch hi
        obtain ⟨ch1, h1, h2, h3⟩ := hr ch hi
        have e1 := h3 []
        have e2 := h3 [(f, true)]
        rw [run, htake, ht, hfl] at e1 e2
        simp only [List.append_nil] at e1 e2
        rw [e1, e2]
        simp
      have i1 := explores hc hlen C root (k true) (path ++ [(f, true)]) d (hu true) (hforced true)
      have i2 := explores hc hlen C root (k false) (path ++ [(f, false)]) d (hu false) (hforced false)
      intro ch acc hi
      obtain ⟨k1, c1, hc1, e1⟩ := i1 ch acc hi
      have hcongr := explore_congr C root path (path ++ [(f, true)]) ch acc (hsame ch hi)
      cases h1 : dfs C (chosen L ch0) (k true) (path ++ [(f, true)]) d with
      | mk ps e =>
        rw [h1] at e1
        cases e with
        | some be =>
          obtain ⟨b, e⟩ := be
          refine ⟨k1, c1, hc1, e1.1, fun n => ?_⟩
          rw [hcongr]; exact e1.2 n
        | none =>
          simp only at e1 ⊢
          have hfin : ∀ n, explore C root (n + k1) path ch acc = explore C root n (path ++ [(f, false)]) c1 (acc ++ ps) := by
            intro n
            rw [hcongr, e1 n]
            simp [finish, prune_true]
          obtain ⟨k2, c2, hc2, e2⟩ := i2 c1 (acc ++ ps) hc1
          refine ⟨k2 + k1, c2, hc2, ?_⟩
          cases h2 : dfs C (chosen L ch0) (k false) (path ++ [(f, false)]) d with
          | mk ps2 e =>
            rw [h2] at e2
            cases e with
            | some be =>
              obtain ⟨b, e⟩ := be
              refine ⟨e2.1, fun n => ?_⟩
              rw [← Nat.add_assoc, hfin]; exact e2.2 n
            | none =>
              simp only at e2 ⊢
              intro n
              rw [← Nat.add_assoc, hfin, e2 n, List.append_assoc]
              simp only [finish, prune_false]
  | .choose cs k, path, d, hu, hr => by
    obtain ⟨hcs, hne, hdD, hk⟩ := hu
    have hrun : ∀ ch1, Inv L D ch0 ch1 → Vis L ch0 d ch1 → ∀ ext, run C (.choose cs k) path.length (path ++ ext) d ch1 =
        match comp L ch0 d with
        | [] => .err true d ch1
        | o :: os => run C (k o) path.length (path ++ ext) (d + 1) (ch1.take d ++ (o :: os) :: ch1.drop (d + 1)) := by
      intro ch1 h1 h2 ext
      rw [run, if_neg (by simpa using hne), hcs, (choose_step hc hlen h1.1 h2 hdD).1]
      cases comp L ch0 d <;> rfl
    cases hcomp : comp L ch0 d with
    | nil =>
      have hch : chosen L ch0 d = none := by simp [chosen, hcomp]
      simp only [dfs, hch]
      intro ch acc hi
      obtain ⟨ch1, h1, h2, h3⟩ := hr ch hi
      refine ⟨1, ch1, h1, h2, fun n => ?_⟩
      have := h3 []
      rw [hrun ch1 h1 h2, hcomp] at this
      simp only [List.append_nil] at this
      simp only [explore, this]
    | cons o os =>
      have hch : chosen L ch0 d = some o := by simp [chosen, hcomp]
      simp only [dfs, hch]
      apply explores hc hlen C root (k o) path (d + 1) (hk o)
      intro ch hi
      obtain ⟨ch1, h1, h2, h3⟩ := hr ch hi
      obtain ⟨-, s2, s3⟩ := choose_step hc hlen h1.1 h2 hdD
      rw [hcomp] at s2 s3
      have s4 : ∀ l ∈ ch1.take d ++ (o :: os) :: ch1.drop (d + 1), l ≠ [] := by
        intro l hl
        simp only [List.mem_append, List.mem_cons] at hl
        rcases hl with hl | rfl | hl
        · exact h1.2 l (List.mem_of_mem_take hl)
        · simp
        · exact h1.2 l (List.mem_of_mem_drop hl)
      refine ⟨_, ⟨s2, s4⟩, s3, fun ext => ?_⟩
      rw [h3 ext, hrun ch1 h1 h2, hcomp]

/-- Exploring one state from the start. -/
theorem explore_state {L : Nat → List O} {D : Nat} {ch0 : List (List O)} (hc : Clean L ch0) (hlen : ch0.length ≤ D) (C : A → Prop)
    (root : Prog A O) (hu : Uniform L D root 0) (ch : List (List O)) (hi : Inv L D ch0 ch) :
    ∃ k ch', Inv L D ch0 ch' ∧
      match dfs C (chosen L ch0) root [] 0 with
      | (ps, none) => ∀ n, explore C root (n + k) [] ch [] = some (.ok ps ch')
      | (_, some (b, e)) => Vis L ch0 e ch' ∧ ∀ n, explore C root (n + k) [] ch [] = some (.err b e ch') := by
  have hr : RunsTo L D ch0 C root root [] 0 := by
    intro ch h
    exact ⟨ch, h, ⟨by omega, by simp [upto]⟩, fun ext => rfl⟩
  obtain ⟨k, ch', h1, h2⟩ := explores hc hlen C root root [] 0 hu hr ch [] hi
  refine ⟨k, ch', h1, ?_⟩
  cases hd : dfs C (chosen L ch0) root [] 0 with
  | mk ps e =>
    rw [hd] at h2
    cases e with
    | some be => exact h2
    | none =>
      simp only at h2 ⊢
      intro n
      rw [h2 n]
      simp [finish, prune]

/-- More fuel does not change a result. -/
theorem explore_mono (C : A → Prop) (root : Prog A O) : ∀ (n : Nat) (br : Branches A) (ch : List (List O)) (acc : List (Branches A))
    (r : Out A O (List (Branches A))), explore C root n br ch acc = some r → ∀ m, explore C root (n + m) br ch acc = some r := by
  intro n
  induction n with
  | zero => intro br ch acc r h; simp [explore] at h
  | succ n ih =>
    intro br ch acc r h m
    rw [show n + 1 + m = (n + m) + 1 by omega]
    simp only [explore] at h ⊢
    split at h
    · exact h
    · split at h
      · exact h
      · rename_i x hx
        exact ih _ _ _ _ h m

/-! ### C37 -/

/-- The choices of a specification without any. -/
theorem inv_nil (L : Nat → List O) (D : Nat) : Inv L D [] [] := ⟨Or.inl rfl, by simp⟩

theorem clean_nil (L : Nat → List O) : Clean L [] := rfl

/-- C37: the exploration terminates. -/
theorem C37_terminates (C : A → Prop) (root : Prog A O) (hn : NoChoose root) :
    ∃ fuel r, ∀ n, explore C root (n + fuel) [] [] [] = some r := by
  obtain ⟨k, ch', -, h⟩ := explore_state (clean_nil fun _ => []) (Nat.le_refl 0) C root (noChoose_uniform (fun _ => []) root hn 0)
    [] (inv_nil _ _)
  cases hd : dfs C (chosen (fun _ => []) []) root [] 0 with
  | mk ps e =>
    rw [hd] at h
    cases e with
    | none => exact ⟨k, _, h⟩
    | some be => exact ⟨k, _, h.2⟩

/-- The result of the exploration is that of the enumeration. -/
theorem explore_result (C : A → Prop) (root : Prog A O) (hn : NoChoose root) (fuel : Nat) (paths : List (Branches A)) (ch : List (List O))
    (h : explore C root fuel [] [] [] = some (.ok paths ch)) :
    (dfs C (chosen (fun _ => []) []) root [] 0) = (paths, none) := by
  obtain ⟨k, ch', -, h'⟩ := explore_state (clean_nil fun _ => []) (Nat.le_refl 0) C root (noChoose_uniform (fun _ => []) root hn 0)
    [] (inv_nil _ _)
  have hm := explore_mono C root fuel [] [] [] _ h k
  cases hd : dfs C (chosen (fun _ => []) []) root [] 0 with
  | mk ps e =>
    rw [hd] at h'
    cases e with
    | none =>
      simp only at h'
      rw [h' fuel] at hm
      simp only [Option.some.injEq, Out.ok.injEq] at hm
      rw [hm.1]
    | some be =>
      have := h'.2 fuel
      rw [this] at hm
      cases hm

/-- C37: on success, every path is feasible, no two paths have an assignment in common, the paths
cover all assignments satisfying the constraints, and the specification succeeds on all of them. -/
theorem C37_paths (C : A → Prop) (hC : ∃ ρ, C ρ) (root : Prog A O) (hn : NoChoose root) (fuel : Nat)
    (paths : List (Branches A)) (ch : List (List O)) (h : explore C root fuel [] [] [] = some (.ok paths ch)) :
    (∀ p ∈ paths, ∃ ρ, C ρ ∧ ∀ x ∈ p, x.1 ρ = x.2) ∧
    (∀ ρ, C ρ → ∃ p ∈ paths, ∀ x ∈ p, x.1 ρ = x.2) ∧
    (paths.Pairwise fun p q => ∀ ρ, ¬((∀ x ∈ p, x.1 ρ = x.2) ∧ ∀ x ∈ q, x.1 ρ = x.2)) ∧
    ∀ ρ, C ρ → Succeeds ρ (fun _ => none) root 0 := by
  have hd := explore_result C root hn fuel paths ch h
  have hon : ∀ ρ, C ρ → On C [] ρ := fun ρ hρ => ⟨hρ, by simp [follows]⟩
  obtain ⟨g, s⟩ := dfs_ok (a := chosen (fun _ => []) []) root [] 0 (hC.imp hon) (by rw [hd])
  rw [hd] at g
  refine ⟨g.feasible, fun ρ hρ => g.cover ρ (hon ρ hρ), g.exclusive, fun ρ hρ => ?_⟩
  have := s ρ (hon ρ hρ)
  have hsame : ∀ (p : Prog A O) (a a' : Nat → Option O) (d : Nat), NoChoose p → Succeeds ρ a p d → Succeeds ρ a' p d := by
    intro p a a'
    induction p with
    | done => intros; trivial
    | fail => intro d _ h; exact h
    | branch f k ih => intro d hn h; exact ih _ d (hn _) h
    | choose => intro d hn; exact absurd hn (by simp [NoChoose])
  exact hsame root _ _ 0 hn this

/-- C37: the exploration succeeds exactly if the specification succeeds on all assignments satisfying
the constraints. -/
theorem C37_success_iff (C : A → Prop) (hC : ∃ ρ, C ρ) (root : Prog A O) (hn : NoChoose root) :
    (∃ fuel paths ch, explore C root fuel [] [] [] = some (.ok paths ch)) ↔ ∀ ρ, C ρ → Succeeds ρ (fun _ => none) root 0 := by
  constructor
  · rintro ⟨fuel, paths, ch, h⟩
    exact (C37_paths C hC root hn fuel paths ch h).2.2.2
  · intro hs
    obtain ⟨k, ch', -, h⟩ := explore_state (clean_nil fun _ => []) (Nat.le_refl 0) C root (noChoose_uniform (fun _ => []) root hn 0)
      [] (inv_nil _ _)
    cases hd : dfs C (chosen (fun _ => []) []) root [] 0 with
    | mk ps e =>
      rw [hd] at h
      cases e with
      | none => exact ⟨0 + k, ps, ch', h 0⟩
      | some be =>
        obtain ⟨b, e⟩ := be
        obtain ⟨ρ, h1, h2⟩ := dfs_err root [] 0 e (hC.imp fun ρ hρ => ⟨hρ, by simp [follows]⟩) (Or.inr hn) (by rw [hd])
        have hcut : ∀ i x, cut (chosen (fun _ => ([] : List O)) []) e i = some x → (none : Option O) = some x := by
          intro i x hx
          simp [cut, chosen, comp, dedupe] at hx
        exact absurd (hs ρ h1.1) (not_succeeds_of_fails hcut root 0 h2)

/-- C37: one run of the specification per path: exploring takes as many runs as there are paths. -/
theorem C37_one_run_per_path (C : A → Prop) (root : Prog A O) (fuel : Nat) (ch0 : List (List O)) (paths : List (Branches A))
    (ch : List (List O)) (h : explore C root fuel [] ch0 [] = some (.ok paths ch)) :
    explore C root paths.length [] ch0 [] = some (.ok paths ch) ∧ ∀ n, n < paths.length → explore C root n [] ch0 [] = none := by
  have gen : ∀ (n : Nat) (br : Branches A) (c : List (List O)) (acc : List (Branches A)),
      explore C root n br c acc = some (.ok paths ch) → ∃ more, paths = acc ++ more ∧
        explore C root more.length br c acc = some (.ok paths ch) ∧ ∀ m, m < more.length → explore C root m br c acc = none := by
    intro n
    induction n with
    | zero => intro br c acc h; simp [explore] at h
    | succ n ih =>
      intro br c acc h
      simp only [explore] at h
      cases hr : run C root 0 br 0 c with
      | err b ci c' => rw [hr] at h; simp at h
      | ok br' c' =>
        rw [hr] at h
        simp only at h
        cases hl : (prune br').getLast? with
        | none =>
          rw [hl] at h
          simp only [Option.some.injEq, Out.ok.injEq] at h
          refine ⟨[br'], h.1.symm, ?_, ?_⟩
          · simp only [List.length_singleton, explore, hr, hl]; simp [h]
          · intro m hm
            simp only [List.length_singleton] at hm
            have : m = 0 := by omega
            subst this; rfl
        | some x =>
          rw [hl] at h
          simp only at h
          obtain ⟨more, h1, h2, h3⟩ := ih _ _ _ h
          refine ⟨br' :: more, by simp [h1], ?_, ?_⟩
          · simp only [List.length_cons, explore, hr, hl]; exact h2
          · intro m hm
            cases m with
            | zero => rfl
            | succ m =>
              simp only [explore, hr, hl]
              exact h3 m (by simpa using hm)
  obtain ⟨more, h1, h2, h3⟩ := gen fuel [] ch0 [] h
  simp only [List.nil_append] at h1
  subst h1
  exact ⟨h2, h3⟩

/-- A specification over two booleans, as in `if x: (if y: … else: …)`. -/
def sampleSpec : Prog (Bool × Bool) Nat :=
  .branch (·.1) fun b => if b then .branch (·.2) fun _ => .done else .done

/-- The hypotheses of `C37_paths` hold: with no constraints there are three paths. -/
example : NoChoose sampleSpec ∧ ∀ ρ : Bool × Bool, Succeeds ρ (fun _ => none) sampleSpec 0 := by
  refine ⟨fun b => ?_, fun ρ => ?_⟩
  · cases b
    · trivial
    · intro b; trivial
  · obtain ⟨x, y⟩ := ρ
    cases x <;> simp [Succeeds, sampleSpec]

example : (dfs (fun _ => True) (fun _ => none) sampleSpec [] 0).1.length = 3 := by
  have hc : ∀ (p : Branches (Bool × Bool)) (f : Bool × Bool → Bool) (v : Bool), (∃ ρ, follows ρ p ∧ f ρ = v) → canBe (fun _ => True) p f v = true := by
    intro p f v ⟨ρ, h1, h2⟩
    exact canBe_true.mpr ⟨ρ, ⟨trivial, h1⟩, h2⟩
  have h1 := hc [] (·.1) true ⟨(true, true), by simp [follows], rfl⟩
  have h2 := hc [] (·.1) false ⟨(false, true), by simp [follows], rfl⟩
  have h3 := hc [(((·.1) : Bool × Bool → Bool), true)] (·.2) true ⟨(true, true), by simp [follows], rfl⟩
  have h4 := hc [(((·.1) : Bool × Bool → Bool), true)] (·.2) false ⟨(true, false), by simp [follows], rfl⟩
  simp [sampleSpec, dfs, h1, h2, h3, h4]

end Verif.Props
