/- C88: a loop that never ends. -/
import Verif.Props.InferEnds
import Verif.Props.InferMore

set_option autoImplicit false

namespace Verif.Tool.GhostMap

mutual
theorem E.den_syms {ρ ρ' : Env} : ∀ e : E, (∀ i, Sym.bv i ∈ e.syms → ρ.bv i = ρ'.bv i) → (∀ i, Sym.bl i ∈ e.syms → ρ.bl i = ρ'.bl i) → e.den ρ = e.den ρ'
  | .const _, _, _ => rfl
  | .var i, h1, _ => h1 i (by simp [E.syms])
  | .op1 f a, h1, h2 => by simp only [E.den, E.den_syms a h1 h2]
  | .op2 f a b, h1, h2 => by
    simp only [E.syms, List.mem_append] at h1 h2
    simp only [E.den, E.den_syms a (fun i h => h1 i (.inl h)) (fun i h => h2 i (.inl h)), E.den_syms b (fun i h => h1 i (.inr h)) (fun i h => h2 i (.inr h))]
  | .ite c t e, h1, h2 => by
    simp only [E.syms, List.mem_append] at h1 h2
    simp only [E.den, B.den_syms c (fun i h => h1 i (.inl (.inl h))) (fun i h => h2 i (.inl (.inl h))), E.den_syms t (fun i h => h1 i (.inl (.inr h))) (fun i h => h2 i (.inl (.inr h))),
      E.den_syms e (fun i h => h1 i (.inr h)) (fun i h => h2 i (.inr h))]
theorem B.den_syms {ρ ρ' : Env} : ∀ b : B, (∀ i, Sym.bv i ∈ b.syms → ρ.bv i = ρ'.bv i) → (∀ i, Sym.bl i ∈ b.syms → ρ.bl i = ρ'.bl i) → b.den ρ = b.den ρ'
  | .lit _, _, _ => rfl
  | .var i, _, h2 => h2 i (by simp [B.syms])
  | .not a, h1, h2 => by simp only [B.den, B.den_syms a h1 h2]
  | .and a b, h1, h2 => by
    simp only [B.syms, List.mem_append] at h1 h2
    simp only [B.den, B.den_syms a (fun i h => h1 i (.inl h)) (fun i h => h2 i (.inl h)), B.den_syms b (fun i h => h1 i (.inr h)) (fun i h => h2 i (.inr h))]
  | .or a b, h1, h2 => by
    simp only [B.syms, List.mem_append] at h1 h2
    simp only [B.den, B.den_syms a (fun i h => h1 i (.inl h)) (fun i h => h2 i (.inl h)), B.den_syms b (fun i h => h1 i (.inr h)) (fun i h => h2 i (.inr h))]
  | .iff a b, h1, h2 => by
    simp only [B.syms, List.mem_append] at h1 h2
    simp only [B.den, B.den_syms a (fun i h => h1 i (.inl h)) (fun i h => h2 i (.inl h)), B.den_syms b (fun i h => h1 i (.inr h)) (fun i h => h2 i (.inr h))]
  | .ite c t e, h1, h2 => by
    simp only [B.syms, List.mem_append] at h1 h2
    simp only [B.den, B.den_syms c (fun i h => h1 i (.inl (.inl h))) (fun i h => h2 i (.inl (.inl h))), B.den_syms t (fun i h => h1 i (.inl (.inr h))) (fun i h => h2 i (.inl (.inr h))),
      B.den_syms e (fun i h => h1 i (.inr h)) (fun i h => h2 i (.inr h))]
  | .rel f a b, h1, h2 => by
    simp only [B.syms, List.mem_append] at h1 h2
    simp only [B.den, E.den_syms a (fun i h => h1 i (.inl h)) (fun i h => h2 i (.inl h)), E.den_syms b (fun i h => h1 i (.inr h)) (fun i h => h2 i (.inr h))]
end

theorem iandAll_true {M : Nat → Option Nat → Contents} {ρ : Env} {k v : Nat} {p : Bool} : ∀ {l : List IB}, (iandAll l).sem M ρ k v p = true → ∀ c ∈ l, c.sem M ρ k v p = true
  | [], _, c, hc => by simp at hc
  | b :: bs, h, c, hc => by
    simp only [iandAll, IB.sem, Bool.and_eq_true] at h
    rcases List.mem_cons.1 hc with rfl | hc
    · exact h.1
    · exact iandAll_true h.2 c hc

end Verif.Tool.GhostMap

namespace Verif.Props

open Verif.Tool.GhostMap

namespace EndlessExample

/-- Two empty maps. -/
def start : State := ⟨[.not (.var 0), .not (.var 2)], 4, fun o => if o = 0 then ⟨[.not .present], [], .const 0, ⟨.var 0, .var 1, .var 0⟩, []⟩ else ⟨[.not .present], [], .const 0, ⟨.var 2, .var 3, .var 2⟩, []⟩⟩

/-- The item a packet adds. -/
def item (A : State) : Item := ⟨.var A.next, .var (A.next + 1), .lit true⟩

/-- A packet with a key that neither map has and a number that is at most the number of keys of the first map: both maps get the key, with the number. -/
def after (A : State) : State :=
  ⟨(E.var (A.next + 1)).le (A.length 0) :: A.constraints, A.next + 2, fun o =>
    if o = 0 ∨ o = 1 then { A.maps o with layers := ⟨[item A], (A.length o).add (.const 1), (0, [])⟩ :: (A.maps o).layers } else A.maps o⟩

structure Inv (A : State) (prev : Nat → Option (List Nat)) : Prop where
  below : Below A
  blank : ∀ o, o = 0 ∨ o = 1 → (A.maps o).blank
  inv : ∃ c, (A.maps 0).invs = [c] ∧ Vacuous c ∧
    (∃ β : Env → Nat, (∀ ρ ρ', Agree A.next ρ ρ' → β ρ = β ρ') ∧ ∀ ρ, sat A.constraints ρ → ∀ k v, β ρ < v → c.sem noMaps ρ k v true = false) ∧
    ∃ ρ v, sat A.constraints ρ ∧ v ≤ (A.length 0).den ρ ∧ ∀ k, c.sem noMaps ρ k v true = false
  absent : ∀ p ∈ (A.maps 1).invs, Vacuous p
  lens : ∀ ρ, sat A.constraints ρ → (A.length 0).den ρ = (A.length 1).den ρ
  syms : ∀ s ∈ (A.length 0).syms, s ∈ getVariables [0, 1] [A]
  prev : prev 0 = none ∧ prev 1 = none ∨ prev 0 = some [1] ∧ prev 1 = some [0]

theorem after_sat {A : State} {ρ : Env} : sat (after A).constraints ρ ↔ ρ.bv (A.next + 1) ≤ (A.length 0).den ρ ∧ sat A.constraints ρ := by
  show sat (_ :: _) ρ ↔ _
  rw [sat_cons]
  refine and_congr ?_ Iff.rfl
  simp only [E.le, B.den, E.den]
  exact decide_eq_true_iff

theorem after_length {A : State} {o : Nat} (ho : o = 0 ∨ o = 1) : (after A).length o = (A.length o).add (.const 1) := by
  unfold State.length
  show lengthOf (if o = 0 ∨ o = 1 then _ else _) (if o = 0 ∨ o = 1 then _ else _ : MapS).layers = _
  rw [if_pos ho]
  rfl

theorem after_items {A : State} {o : Nat} (ho : o = 0 ∨ o = 1) (hb : (A.maps o).blank) : setItems ((after A).maps o).layers = [item A] := by
  have : ((after A).maps o).layers = [⟨[item A], (A.length o).add (.const 1), (0, [])⟩] := by
    show (if o = 0 ∨ o = 1 then _ else _ : MapS).layers = _
    rw [if_pos ho]
    show _ :: (A.maps o).layers = _
    rw [hb.2]
  rw [this]
  simp [setItems, transform]

theorem after_version {A : State} {o : Nat} (ho : o = 0 ∨ o = 1) : ((after A).maps o).version ≠ (A.maps o).version := by
  show (if o = 0 ∨ o = 1 then _ else _ : MapS).version ≠ _
  rw [if_pos ho]
  simp [MapS.version]

theorem relevant (A : State) : relevantObjs [0, 1] A [after A] = [0, 1] := by
  simp [relevantObjs, State.version, after_version]

/-- A satisfying assignment of the state after a packet with a given number. -/
theorem after_assign {A : State} (hb : Below A) {ρ : Env} {v : Nat} (hs : sat A.constraints ρ) (hv : v ≤ (A.length 0).den ρ) :
    ∃ ρ', Agree A.next ρ ρ' ∧ ρ'.bv (A.next + 1) = v ∧ sat (after A).constraints ρ' := by
  let ρ' : Env := ⟨fun i => if i = A.next + 1 then v else ρ.bv i, ρ.bl⟩
  have ha : Agree A.next ρ ρ' := fun i hi => ⟨by simp only [ρ']; rw [if_neg (by omega)], rfl⟩
  refine ⟨ρ', ha, by simp [ρ'], after_sat.2 ⟨?_, ?_⟩⟩
  · rw [← E.den_congr ha _ (length_within (hb.maps 0))]
    simpa [ρ'] using hv
  · intro c hc
    rw [← B.den_congr ha _ (hb.within c hc)]
    exact hs c hc

theorem lens_kept {A : State} {prev : Nat → Option (List Nat)} (h : Inv A prev) {o o' : Nat} (ho : o = 0 ∧ o' = 1 ∨ o = 1 ∧ o' = 0) :
    definitely (after A).constraints (lengthInv (after A) o o') = true := by
  unfold definitely
  simp only [decide_eq_true_eq]
  intro ρ hs
  have hl := h.lens ρ (after_sat.1 hs).2
  unfold lengthInv
  rcases ho with ⟨rfl, rfl⟩ | ⟨rfl, rfl⟩
  · rw [after_length (.inl rfl), after_length (.inr rfl)]
    simp [E.le, E.add, B.den, E.den, hl]
  · rw [after_length (.inl rfl), after_length (.inr rfl)]
    simp [E.le, E.add, B.den, E.den, hl]

theorem length_found {A : State} {prev : Nat → Option (List Nat)} (h : Inv A prev) {o o' : Nat} (ho : o = 0 ∧ o' = 1 ∨ o = 1 ∧ o' = 0) :
    (inferLength [0, 1] A [after A] o (prev o)).2 = some [o'] := by
  have hk := lens_kept h ho
  have hv0 := after_version (A := A) (.inl rfl)
  have hv1 := after_version (A := A) (.inr rfl)
  obtain ⟨c, -, -, -, ρ, v, hs, hv, -⟩ := h.inv
  obtain ⟨ρ', -, -, hs'⟩ := after_assign h.below hs hv
  have ho1 : o = 0 ∨ o = 1 := by omega
  have hne : definitely (after A).constraints (((after A).length o).eq (A.length o)) = false := by
    unfold definitely
    simp only [decide_eq_false_iff_not]
    intro hx
    have := hx ρ' hs'
    rw [after_length ho1] at this
    simp only [E.eq, E.add, B.den, E.den, beq_iff_eq] at this
    omega
  have hp : prev o = none ∨ prev o = some [o'] := by
    rcases ho with ⟨rfl, rfl⟩ | ⟨rfl, rfl⟩ <;> rcases h.prev with h | h <;> simp [h]
  rcases hp with hp | hp
  · rw [hp]
    simp only [inferLength, getLengthInvariants, List.all_cons, List.all_nil, Bool.and_true, hne, Bool.false_eq_true, if_false]
    rcases ho with ⟨rfl, rfl⟩ | ⟨rfl, rfl⟩ <;> simp [hk, State.version, hv0, hv1]
  · rw [hp]
    simp [inferLength, hk]

/-- What is added to the invariant of the first map bounds values. -/
theorem widening_bounded {A : State} {prev : Nat → Option (List Nat)} (h : Inv A prev) : ∃ K, ∀ ρ k v p,
    (widening (after A).constraints (item A) (getVariables [0, 1] [A])).sem noMaps ρ k v p = true → v ≤ max K ((A.length 0).den ρ) := by
  have hL := length_within (h.below.maps 0)
  cases hc : constantValue (after A).constraints (E.var (A.next + 1)) with
  | some K =>
    refine ⟨K, fun ρ k v p hs => ?_⟩
    have := iandAll_true hs (ieq .value (.lift (.const K))) (by
      rw [List.mem_append]; right
      unfold findConstraints
      simp [item, hc])
    simp [ieq, IB.sem, IE.sem, E.den] at this
    omega
  | none =>
    refine ⟨0, fun ρ k v p hs => ?_⟩
    have := iandAll_true hs (B.repl (.var (A.next + 1)) .value ((E.var (A.next + 1)).le (A.length 0))) (by
      rw [List.mem_append]; right
      unfold findConstraints
      simp only [item, hc]
      rw [List.mem_append]; left
      refine List.mem_map.2 ⟨_, List.mem_filter.2 ⟨List.mem_cons_self, ?_⟩, rfl⟩
      simp only [Bool.and_eq_true, List.all_eq_true, Bool.or_eq_true, decide_eq_true_eq]
      refine ⟨by simp [E.le, B.occurs, E.occurs], ?_⟩
      intro s hs
      simp only [E.le, B.syms, List.mem_append] at hs
      rcases hs with hs | hs
      · exact .inl (decide_eq_true_iff.2 hs)
      · exact .inr (h.syms s hs))
    let ρ' : Env := ⟨fun i => if i = A.next + 1 then v else ρ.bv i, ρ.bl⟩
    have ha : Agree A.next ρ ρ' := fun i hi => ⟨by simp only [ρ']; rw [if_neg (by omega)], rfl⟩
    have hr : IE.sem noMaps ρ k v p .value = IE.sem noMaps ρ' k v p .value := rfl
    rw [B.repl_var_agree hr _ (fun i _ hi => by simp [ρ', hi]) (fun i _ => rfl), B.repl_sem (by simp [IE.sem, E.den, ρ'])] at this
    simp only [E.le, B.den, E.den] at this
    have := decide_eq_true_iff.1 this
    rw [← E.den_congr ha _ hL] at this
    have hv : ρ'.bv (A.next + 1) = v := by simp [ρ']
    rw [hv] at this
    omega

theorem flattened {A : State} {prev : Nat → Option (List Nat)} (h : Inv A prev) {c : IB} (hc : (A.maps 0).invs = [c]) {f : Found}
    (hf : inferObj 1 noGuess [0, 1] (getVariables [0, 1] [A]) A prev [after A] 0 = some f) :
    ∃ c', f.conjs = [c'] ∧ (c' = c ∨ c' = .or c (widening (after A).constraints (item A) (getVariables [0, 1] [A]))) := by
  have hcs : c.still := IB.still_of_pure _ ((h.below.maps 0).invs c (by simp [hc]))
  unfold inferObj at hf
  rw [hc] at hf
  simp only [flatten, flattenStates, after_items (.inl rfl) (h.blank 0 (.inl rfl)), flattenItems] at hf
  obtain ⟨b, h1, -⟩ := evalB_still (get 1) (item A) (.and (item A).present (.lit true)) (after A) c hcs
  have ha : applyInv (get 1) (after A) (freezeB (after A) c) (item A) (.lit true) = some (b, after A) := by unfold applyInv; rw [freezeB_still _ c hcs]; exact h1
  rw [ha] at hf
  simp only [noGuess_none, ite_self] at hf
  by_cases hd : definitely (after A).constraints (implies (item A).present b) = true
  · simp only [hd, if_true, Option.some.injEq] at hf
    subst hf
    exact ⟨c, rfl, .inl rfl⟩
  · simp only [hd, if_false, Bool.false_eq_true, Option.some.injEq] at hf
    subst hf
    exact ⟨_, rfl, .inr rfl⟩

/-- An iteration goes on, to a state of the same kind. -/
theorem goes_on {A : State} {prev : Nat → Option (List Nat)} (h : Inv A prev) :
    ∃ A' prev', infer 1 noGuess [0, 1] [A] [after A] prev = some (.next [A'] prev') ∧ Inv A' prev' := by
  have hst : ∀ o, ∀ c ∈ (A.maps o).invs, c.still := fun o c hc => IB.still_of_pure _ ((h.below.maps o).invs c hc)
  obtain ⟨c, hc, hvac, ⟨β, hβ1, hβ2⟩, ρ0, v0, hs0, hv0, hfail⟩ := h.inv
  obtain ⟨fs, hfs⟩ := inferObjs_some (fuel := 1) (relevant := [0, 1]) (vars := getVariables [0, 1] [A]) (prev := prev) (sts := [after A]) hst [0, 1]
  obtain ⟨hfst, hfm⟩ := inferObjs_mem hfs
  have hwR : ∀ st ∈ [after A], ∀ c ∈ st.constraints, c.within (max A.next (topOf [after A])) := by
    intro st hst c hc
    refine B.within_mono ((le_topOf hst).trans (Nat.le_max_right _ _)) _ ?_
    simp only [List.mem_singleton] at hst
    subst hst
    rcases List.mem_cons.1 (show c ∈ _ :: A.constraints from hc) with rfl | hc
    · exact ⟨show A.next + 1 < A.next + 2 by omega, E.within_mono (show A.next ≤ A.next + 2 by omega) _ (length_within (h.below.maps 0))⟩
    · exact B.within_mono (show A.next ≤ A.next + 2 by omega) _ (h.below.within c hc)
  have hspec : ∀ f ∈ fs, f.2.preds = [] ∧ (∀ c ∈ f.2.conjs, c.pure (max A.next (topOf [after A]))) ∧ List.Forall₂ Weaker f.2.conjs (A.maps f.1).invs ∧
      f.2.lens = (inferLength [0, 1] A [after A] f.1 (prev f.1)).2 := fun f hf =>
    inferObj_spec hwR (fun c hc => IB.pure_mono (Nat.le_max_left _ _) _ ((h.below.maps f.1).invs c hc)) (hfm f hf)
  have hplain : Relaxable A (max A.next (topOf [after A])) fs :=
    ⟨by rw [hfst]; simp, fun f hf => (hspec f hf).1, fun f hf => (hspec f hf).2.1, h.below.maps, h.below.within⟩
  obtain ⟨f0, f1, rfl⟩ : ∃ f0 f1, fs = [(0, f0), (1, f1)] := by
    match fs, hfst with
    | [(a, f0), (b, f1)], hfst =>
      simp only [List.map_cons, List.map_nil, List.cons.injEq, and_true] at hfst
      obtain ⟨rfl, rfl⟩ := hfst
      exact ⟨f0, f1, rfl⟩
  have hm0 : ((0, f0) : Nat × Found) ∈ [(0, f0), (1, f1)] := by simp
  have hm1 : ((1, f1) : Nat × Found) ∈ [(0, f0), (1, f1)] := by simp
  have hl0 : f0.lens = some [1] := by rw [(hspec _ hm0).2.2.2]; exact length_found h (.inl ⟨rfl, rfl⟩)
  have hl1 : f1.lens = some [0] := by rw [(hspec _ hm1).2.2.2]; exact length_found h (.inr ⟨rfl, rfl⟩)
  obtain ⟨c', hc', hcase⟩ := flattened h hc (hfm _ hm0)
  simp only at hc'
  obtain ⟨K, hK⟩ := widening_bounded h
  -- something changed
  have hch : f0.changed = true := by
    cases hx : f0.changed with
    | true => rfl
    | false =>
      have := ((inferObj_unchanged (hst 0)).1 ⟨f0, hfm _ hm0, hx⟩).1 c (by simp [hc]) (after A) (by simp) (item A) (by rw [after_items (.inl rfl) (h.blank 0 (.inl rfl))]; simp)
      obtain ⟨ρ1, a1, a2, a3⟩ := after_assign h.below hs0 hv0
      have h1 := this noMaps ρ1 a3 rfl
      have h2 : (item A).value.den ρ1 = v0 := a2
      rw [h2, show (item A).present.den ρ1 = true from rfl, ← IB.sem_congr a1 _ _ _ _ ((h.below.maps 0).invs c (by simp [hc])), hfail] at h1
      simp at h1
  -- what is now assumed of the first map bounds values
  let β' : Env → Nat := fun ρ => max (β ρ) (max K ((A.length 0).den ρ))
  have hβ' : ∀ ρ, sat A.constraints ρ → ∀ k v, β' ρ < v → c'.sem noMaps ρ k v true = false := by
    intro ρ hs k v hv
    have h1 := hβ2 ρ hs k v (lt_of_le_of_lt (Nat.le_max_left _ _) hv)
    rcases hcase with rfl | rfl
    · exact h1
    · simp only [IB.sem, h1, Bool.false_or]
      by_contra hx
      have := hK ρ k v true (by simpa using hx)
      have := lt_of_le_of_lt (Nat.le_max_right (β ρ) _) hv
      omega
  have hβa : ∀ ρ ρ', Agree A.next ρ ρ' → β' ρ = β' ρ' := by
    intro ρ ρ' ha
    simp only [β']
    rw [hβ1 ρ ρ' ha, E.den_congr ha _ (length_within (h.below.maps 0))]
  have hvac' : ∀ f ∈ [((0, f0) : Nat × Found), (1, f1)], ∀ p ∈ f.2.conjs, Vacuous p := by
    intro f hf p hp
    obtain ⟨old, hold, hw⟩ := forall₂_mem (hspec f hf).2.2.1 p hp
    have hv : Vacuous old := by
      simp only [List.mem_cons, List.not_mem_nil, or_false] at hf
      rcases hf with rfl | rfl
      · simp only [hc, List.mem_singleton] at hold
        subst hold; exact hvac
      · exact h.absent old hold
    exact fun M ρ k v => hw M ρ k v false (hv M ρ k v)
  let b := β' ρ0
  obtain ⟨A1, names, j1, j2, j3, j4, j5, j6, ρ1, ja, jb⟩ := relax_spec 1 (topOf [after A]) _ A hplain (fun _ => b + 2) (fun _ => b + 2) (fun _ => false) (fun _ => b + 1) ρ0
  have hle : A.next ≤ max A.next (topOf [after A]) := Nat.le_max_left _ _
  have ha : Agree A.next ρ0 ρ1 := fun i hi => ja i (lt_of_lt_of_le hi hle)
  obtain ⟨i0, p1, p2, p3, p4, p5⟩ := j4 _ hm0
  obtain ⟨i1, q1, q2, q3, q4, q5⟩ := j4 _ hm1
  simp only [hl0, relaxedLength] at p3 p4
  simp only [hl1, relaxedLength] at q3 q4
  have he : ∀ i, isEmpty (E.var i) = false := fun i => rfl
  rw [he, if_neg (by simp)] at p4 q4
  rw [hc'] at p4
  obtain ⟨q, hq⟩ : ∃ q, names 0 = [(q, c')] := by
    match names 0, p4 with
    | [(q, c'')], p4 =>
      simp only [List.map_cons, List.map_nil, List.cons.injEq, and_true] at p4
      subst p4
      exact ⟨q, rfl⟩
  have hA0 : A1.length 0 = .var (i0 + 2) := by unfold State.length; rw [p3]; rfl
  have hA1 : A1.length 1 = .var (i1 + 2) := by unfold State.length; rw [q3]; rfl
  have hne : i1 + 2 ≠ i0 + 2 := by
    obtain ⟨A2, names2, y1, -, -, -, -, -, ρ2, -, y2⟩ := relax_spec 1 (topOf [after A]) _ A hplain (fun _ => 0) (fun _ => 0) (fun _ => false) (fun o => o) ρ0
    rw [j1] at y1
    simp only [Option.some.injEq] at y1
    subst y1
    have z0 := (y2 _ hm0).2.2.2.1 (by simp [hl0])
    have z1 := (y2 _ hm1).2.2.2.1 (by simp [hl1])
    simp only [p3, q3, E.den] at z0 z1
    intro hx
    rw [hx] at z1
    omega
  have hlens : ∀ ρ, sat A1.constraints ρ → (A1.length 0).den ρ = (A1.length 1).den ρ := by
    intro ρ hs
    have h0 := (((j6 ρ).1 hs).2 _ hm0).2 1 (by simp [hl0])
    have h1 := (((j6 ρ).1 hs).2 _ hm1).2 0 (by simp [hl1])
    exact Nat.le_antisymm h0 h1
  obtain ⟨k1, k2, k3, k4, k5⟩ := jb _ hm0
  obtain ⟨l1, l2, l3, l4, l5⟩ := jb _ hm1
  have k4 := k4 (by simp [hl0])
  have l4 := l4 (by simp [hl1])
  simp only [p3, q3, E.den] at k1 k2 k4 l1 l2 l4
  have hsatA : sat A.constraints ρ1 := fun x hx => by rw [← B.den_congr ha _ (h.below.within x hx)]; exact hs0 x hx
  have hsat1 : sat A1.constraints ρ1 := by
    rw [j6 ρ1]
    refine ⟨hsatA, ?_⟩
    intro f hf
    refine ⟨fun x hx => ?_, ?_⟩
    · obtain ⟨-, -, hpres, -, hnm⟩ := jb f hf
      refine ⟨hnm x hx, ?_⟩
      rw [hpres]
      obtain ⟨i, -, -, -, hi4, -⟩ := j4 f hf
      have hx2 : x.2 ∈ (names f.1).map Prod.snd := List.mem_map.2 ⟨x, hx, rfl⟩
      rw [hi4] at hx2
      split at hx2
      · simp at hx2
      · exact hvac' f hf _ hx2 _ _ _ _
    · intro other ho
      simp only [List.mem_cons, List.not_mem_nil, or_false] at hf
      rcases hf with rfl | rfl
      · simp only [hl0, Option.getD_some, List.mem_singleton] at ho
        subst ho
        rw [hA0, hA1]; simp only [E.den]; omega
      · simp only [hl1, Option.getD_some, List.mem_singleton] at ho
        subst ho
        rw [hA0, hA1]; simp only [E.den]; omega
  refine ⟨A1, lensOf [(0, f0), (1, f1)], ?_, ⟨relax_below h.below hplain j1, ?_, ⟨named (q, c'), ?_, ?_, ⟨β', ?_, ?_⟩, ρ1, b + 1, hsat1, ?_, ?_⟩, ?_, hlens, ?_, ?_⟩⟩
  · simp only [infer, relevant, hfs]
    rw [if_pos (by simp [hch])]
    simp only [allSome, j1]
  · rintro o (rfl | rfl)
    · rw [p3]; exact ⟨rfl, rfl⟩
    · rw [q3]; exact ⟨rfl, rfl⟩
  · rw [p3, hq]; rfl
  · intro M ρ k v
    simp only [named, iimplies, IB.sem, Bool.or_eq_true]
    exact .inr (hvac' _ hm0 c' (by simp [hc']) M ρ k v)
  · intro ρ ρ' hag
    exact hβa ρ ρ' fun i hi => hag i (lt_of_lt_of_le hi (hle.trans j2))
  · intro ρ hs k v hv
    have hx := (((j6 ρ).1 hs).2 _ hm0).1 (q, c') (by simp [hq])
    simp only [named, iimplies, IB.sem, B.den, hx.1, hβ' ρ ((j6 ρ).1 hs).1 k v hv, Bool.not_true, Bool.or_false]
  · rw [hA0]; simp only [E.den]; omega
  · intro k
    have hx := k5 (q, c') (by simp [hq])
    have hb : β' ρ1 = b := (hβa ρ0 ρ1 ha).symm
    simp only [named, iimplies, IB.sem, B.den, hx, hβ' ρ1 hsatA k (b + 1) (by omega), Bool.not_true, Bool.or_false]
  · intro p hp
    rw [q3] at hp
    obtain ⟨x, hx, rfl⟩ := List.mem_map.1 hp
    intro M ρ k v
    simp only [named, iimplies, IB.sem, Bool.or_eq_true]
    refine .inr (hvac' _ hm1 x.2 ?_ M ρ k v)
    rw [← q4]
    exact List.mem_map.2 ⟨x, hx, rfl⟩
  · intro s hs
    rw [hA0] at hs
    simp only [E.syms, List.mem_singleton] at hs
    subst hs
    simp only [getVariables, List.mem_filter, List.all_nil, and_true, List.all_cons, Bool.and_true, Bool.and_eq_true, decide_eq_true_eq]
    refine ⟨?_, ?_, ?_⟩
    · by_contra hns
      -- otherwise the length could be anything
      let ρ2 : Env := ⟨fun i => if i = i0 + 2 then b else ρ1.bv i, ρ1.bl⟩
      have hs2 : sat A1.constraints ρ2 := by
        intro x hx
        rw [← hsat1 x hx]
        refine B.den_syms x (fun i hi => ?_) fun i _ => rfl
        simp only [ρ2]
        rw [if_neg]
        rintro rfl
        exact hns (List.mem_flatMap.2 ⟨x, hx, hi⟩)
      have := hlens ρ2 hs2
      rw [hA0, hA1] at this
      simp only [E.den, ρ2, if_true, if_neg hne] at this
      omega
    · rw [p3]; simp [Item.syms, E.syms, B.syms]
    · rw [q3]
      simp only [Item.syms, E.syms, B.syms, List.cons_append, List.nil_append, List.mem_cons, Sym.bv.injEq, reduceCtorEq, List.not_mem_nil, or_false, not_or]
      constructor
      · intro hx; rw [hx] at k4; omega
      · intro hx; rw [hx] at k4; omega
  · right
    exact ⟨by rw [lensOf_mem hplain.nodup hm0, hl0], by rw [lensOf_mem hplain.nodup hm1, hl1]⟩

/-- The state after a packet is right about the maps after it. -/
theorem after_describes {A : State} {W : Nat → Contents} {ρ : Env} (hd : Describes A W ρ) (hb : ∀ o, o = 0 ∨ o = 1 → (A.maps o).blank) {k v : Nat}
    (hk : ∀ o, o = 0 ∨ o = 1 → A.maps' W ρ o k = none ∧ (A.maps o).unknown.key.den ρ ≠ k ∧ {j | (A.maps' W ρ o j).isSome}.ncard + 1 < 2 ^ 64)
    (hv : v ≤ {j | (A.maps' W ρ 0 j).isSome}.ncard) :
    ∃ ρ', Agree A.next ρ ρ' ∧ Describes (after A) W ρ' ∧ (after A).maps' W ρ' = ((A.maps' W ρ).put 0 k (some v)).put 1 k (some v) := by
  let ρ' : Env := ⟨fun i => if i = A.next then k else if i = A.next + 1 then v else ρ.bv i, ρ.bl⟩
  have ha : Agree A.next ρ ρ' := fun i hi => ⟨by simp only [ρ']; rw [if_neg (by omega), if_neg (by omega)], rfl⟩
  have hkb : ρ'.bv A.next = k := by simp [ρ']
  have hvb : ρ'.bv (A.next + 1) = v := by simp [ρ']
  have hle : A.next ≤ A.next + 2 := by omega
  have habs : ∀ o, o = 0 ∨ o = 1 → (W o k).2 = false := by
    intro o ho
    have := (hk o ho).1
    unfold State.maps' at this
    rw [blank_content (hb o ho)] at this
    cases hx : (W o k).2 with
    | false => rfl
    | true => rw [hx] at this; simp at this
  have hlen0 : ∀ o, (A.length o).den ρ = {j | (A.maps' W ρ o j).isSome}.ncard := fun o => length_card hd o
  have hmap : ∀ o, o = 0 ∨ o = 1 → MapOk (A.next + 2) ρ' (W o) { A.maps o with layers := ⟨[item A], (A.length o).add (.const 1), (0, [])⟩ :: (A.maps o).layers } := by
    intro o ho
    have hm := (hd.maps o).congr hle ha
    refine hm.addLayer (item := item A) ⟨show A.next < A.next + 2 by omega, show A.next + 1 < A.next + 2 by omega, trivial⟩
      ⟨E.within_mono hle _ (length_within (hd.maps o).within), trivial⟩ ?_ ?_ ?_
    · rw [← E.den_congr ha _ (hd.maps o).within.unknown.1]
      show _ ≠ ρ'.bv A.next
      rw [hkb]
      exact (hk o ho).2.1
    · right
      show (W o (ρ'.bv A.next)).2 = false
      rw [hkb]
      exact habs o ho
    · rw [override_single]
      show LenOk ρ' (Function.update (content ρ' (W o) (A.maps o).layers) (ρ'.bv A.next) (ρ'.bv (A.next + 1), true)) _
      rw [hkb, hvb, (hb o ho).2]
      have hlenOk : LenOk ρ' (W o) (A.length o) := by
        have := hm.length 0
        rw [List.drop_zero, (hb o ho).2] at this
        rw [MapS.blank_length (hb o ho)]
        exact this
      refine lenOk_insert hlenOk ?_ rfl ?_
      · intro S hS
        have h1 : Contents.count (W o) = S.card := count_eq hS
        have h2 := hlenOk.count
        rw [← E.den_congr ha _ (length_within (hd.maps o).within), hlen0] at h2
        have := (hk o ho).2.2
        omega
      · simp [E.den, content, habs o ho]
  have hsat : sat A.constraints ρ' := fun c hc => by rw [← B.den_congr ha _ (hd.within c hc)]; exact hd.sat c hc
  refine ⟨ρ', ha, ⟨after_sat.2 ⟨?_, hsat⟩, ?_, ?_⟩, ?_⟩
  · rw [hvb, ← E.den_congr ha _ (length_within (hd.maps 0).within), hlen0]
    exact hv
  · intro c hc
    rcases List.mem_cons.1 (show c ∈ _ :: A.constraints from hc) with rfl | hc
    · exact ⟨show A.next + 1 < A.next + 2 by omega, E.within_mono hle _ (length_within (hd.maps 0).within)⟩
    · exact B.within_mono hle _ (hd.within c hc)
  · intro o
    show MapOk (A.next + 2) ρ' (W o) (if o = 0 ∨ o = 1 then _ else A.maps o)
    split
    · rename_i ho; exact hmap o ho
    · exact (hd.maps o).congr hle ha
  · funext o j
    by_cases ho : o = 0 ∨ o = 1
    · have h1 : (after A).contentAt W ρ' o none = Function.update (W o) k (v, true) := by
        unfold State.contentAt
        rw [show ((after A).maps o) = { A.maps o with layers := ⟨[item A], (A.length o).add (.const 1), (0, [])⟩ :: (A.maps o).layers } from if_pos ho]
        show content ρ' (W o) (⟨[item A], _, _⟩ :: (A.maps o).layers) = _
        rw [(hb o ho).2]
        simp only [content]
        rw [override_single]
        show Function.update (W o) (ρ'.bv A.next) (ρ'.bv (A.next + 1), true) = _
        rw [hkb, hvb]
      unfold State.maps' Maps.put
      simp only
      rw [h1, blank_content (hb o ho)]
      by_cases hj : j = k
      · rcases ho with rfl | rfl <;> simp [hj]
      · simp [hj]
    · have h1 : (after A).contentAt W ρ' o none = A.contentAt W ρ o none :=
        contentAt_congr hd ha (by
          rw [show (after A).maps o = A.maps o from if_neg ho]
          simp [SameLayers])
      unfold State.maps' Maps.put
      rw [h1]
      simp only [not_or] at ho
      simp [ho]

theorem start_inv : Inv start fun _ => none := by
  refine ⟨⟨?_, ?_⟩, ?_, ⟨.not .present, rfl, ?_, ⟨fun _ => 0, fun _ _ _ => rfl, ?_⟩, env0, 0, ?_, ?_, ?_⟩, ?_, ?_, ?_, .inl ⟨rfl, rfl⟩⟩
  · intro o
    by_cases ho : o = 0
    · subst ho
      exact ⟨by simp [start], trivial, ⟨show 0 < 4 by omega, show 1 < 4 by omega, show 0 < 4 by omega⟩, by simp [start], by simp [start, IB.pure]⟩
    · have : start.maps o = ⟨[.not .present], [], .const 0, ⟨.var 2, .var 3, .var 2⟩, []⟩ := if_neg ho
      rw [this]
      exact ⟨by simp, trivial, ⟨show 2 < 4 by omega, show 3 < 4 by omega, show 2 < 4 by omega⟩, by simp, by simp [IB.pure]⟩
  · simp [start, B.within]
  · rintro o (rfl | rfl) <;> exact ⟨rfl, rfl⟩
  · intro M ρ k v; simp [IB.sem]
  · intro ρ _ k v _; simp [IB.sem]
  · simp [start, sat, B.den, env0]
  · exact Nat.zero_le _
  · intro k; simp [IB.sem]
  · intro p hp
    have : p = .not .present := by simpa [start] using hp
    subst this
    intro M ρ k v; simp [IB.sem]
  · intro ρ _; rfl
  · intro s hs; simp [start, State.length, lengthOf, E.syms] at hs

theorem start_describes : Describes start (fun _ _ => (0, false)) env0 := by
  refine ⟨by simp [start, sat, B.den, env0], start_inv.below.within, fun o => ?_⟩
  have hb := start_inv.below.maps o
  have hm : start.maps o = ⟨[.not .present], [], .const 0, (start.maps o).unknown, []⟩ := by simp only [start]; split <;> rfl
  refine ⟨hb, by rw [hm]; trivial, by rw [hm]; simp, by rw [hm]; simp [BaseOk], by rw [hm]; simp [Untouched], ?_, by rw [hm]; simp, ?_, ?_⟩
  · simp only [start]; split <;> rfl
  · rw [hm]; simp [IB.sem]
  · intro d
    rw [hm]
    refine ⟨∅, ?_, ?_, by simp⟩
    · intro k; simp [content]
    · simp [lengthOf, E.den]

/-- The states the iterations start from. -/
noncomputable def states : Nat → { x : State × (Nat → Option (List Nat)) // Inv x.1 x.2 }
  | 0 => ⟨(start, fun _ => none), start_inv⟩
  | n + 1 => ⟨((goes_on (states n).2).choose, (goes_on (states n).2).choose_spec.choose), (goes_on (states n).2).choose_spec.choose_spec.2⟩

theorem loop_none : ∀ (n i : Nat), fixpointLoop 1 noGuess [0, 1] (fun A => some [after A]) n [(states i).1.1] (states i).1.2 = none
  | 0, _ => rfl
  | n + 1, i => by
    have := (goes_on (states i).2).choose_spec.choose_spec.1
    unfold fixpointLoop
    simp only [exploreAll, allSome, List.flatten_cons, List.flatten_nil, List.append_nil]
    rw [this]
    exact loop_none n (i + 1)

end EndlessExample

open EndlessExample in
/-- C88 is false in general. There are two maps, empty at first; each packet adds to both a key they do not have, with a number that is at most the number of keys, and the states explored are right
about the maps after every such packet. Every iteration succeeds and finds that an invariant must change, since the number may be larger than the length the map had in any iteration so far. The loop
goes on forever. -/
theorem C88_never_ends : ∃ (explore : State → Option (List State)) (A : Nat → State) (prev : Nat → Nat → Option (List Nat)),
    Describes (A 0) (fun _ _ => (0, false)) env0 ∧ (A 0).maps' (fun _ _ => (0, false)) env0 = (fun _ _ => none) ∧ prev 0 = (fun _ => none) ∧
    (∀ i, ∃ r, explore (A i) = some [r] ∧ infer 1 noGuess [0, 1] [A i] [r] (prev i) = some (.next [A (i + 1)] (prev (i + 1))) ∧
      ∀ W ρ, Describes (A i) W ρ → ∀ k v, v ≤ {j | ((A i).maps' W ρ 0 j).isSome}.ncard →
        (∀ o, o = 0 ∨ o = 1 → (A i).maps' W ρ o k = none ∧ ((A i).maps o).unknown.key.den ρ ≠ k ∧ {j | ((A i).maps' W ρ o j).isSome}.ncard + 1 < 2 ^ 64) →
        ∃ ρ', Agree (A i).next ρ ρ' ∧ Describes r W ρ' ∧ r.maps' W ρ' = (((A i).maps' W ρ).put 0 k (some v)).put 1 k (some v)) ∧
    ∀ n, fixpointLoop 1 noGuess [0, 1] explore n [A 0] (fun _ => none) = none := by
  refine ⟨fun A => some [after A], fun i => (states i).1.1, fun i => (states i).1.2, EndlessExample.start_describes, ?_, rfl, ?_, fun n => loop_none n 0⟩
  · funext o k
    show EndlessExample.start.maps' _ _ o k = none
    have : (EndlessExample.start.maps o).layers = [] := by simp only [EndlessExample.start]; split <;> rfl
    simp [State.maps', State.contentAt, this, content]
  · intro i
    exact ⟨_, rfl, (goes_on (states i).2).choose_spec.choose_spec.1, fun W ρ hd k v hv hk => after_describes hd (states i).2.blank hk hv⟩

end Verif.Props
