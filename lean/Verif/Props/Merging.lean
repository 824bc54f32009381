/-
C08-C12 and C16: merging, triage, forking and exploration of symbolic states.
-/
import Verif.Tool.Merging
import Mathlib.Data.List.TakeWhile

set_option autoImplicit false

namespace Verif.Props
open Verif.Tool.Merging

/-- An assignment satisfies all constraints of a list. -/
def Sat {A : Type} (cs : List (Con A)) (a : A) : Prop := ∀ c ∈ cs, c.holds a = true
def SatP {A : Type} (cs : List (A → Bool)) (a : A) : Prop := ∀ c ∈ cs, c a = true

/-- Objects with the same identity are the same object. -/
def SameObjects {A : Type} (lists : List (List (Con A))) : Prop :=
  ∀ l ∈ lists, ∀ l' ∈ lists, ∀ c ∈ l, ∀ c' ∈ l', c.id = c'.id → c.holds = c'.holds

/-! ### C08 -/

theorem foldl_min_le {α : Type} (others : List (List α)) : ∀ m, others.foldl (fun m o => min m o.length) m ≤ m ∧
    ∀ o ∈ others, others.foldl (fun m o => min m o.length) m ≤ o.length := by
  induction others with
  | nil => simp
  | cons x t ih =>
    intro m
    obtain ⟨h1, h2⟩ := ih (min m x.length)
    refine ⟨by simp only [List.foldl_cons]; omega, ?_⟩
    intro o ho
    simp only [List.foldl_cons]
    rcases List.mem_cons.1 ho with rfl | ho
    · omega
    · exact h2 o ho

theorem divergence_spec {A : Type} (self : List (Con A)) (others : List (List (Con A))) :
    ∀ fuel i, i + fuel ≤ minLength self others →
      i ≤ divergence self others fuel i ∧ divergence self others fuel i ≤ minLength self others ∧
      ∀ j, i ≤ j → j < divergence self others fuel i → ∀ o ∈ others, (self[j]?.map Con.id) = (o[j]?.map Con.id) := by
  intro fuel
  induction fuel with
  | zero => intro i hi; exact ⟨le_refl _, by simpa [divergence] using hi, fun j h1 h2 => by simp [divergence] at h2; omega⟩
  | succ fuel ih =>
    intro i hi
    rw [divergence]
    split
    · rename_i hall
      obtain ⟨h1, h2, h3⟩ := ih (i + 1) (by omega)
      refine ⟨by omega, h2, fun j hj1 hj2 o ho => ?_⟩
      by_cases hij : j = i
      · subst hij
        simpa using List.all_eq_true.1 hall o ho
      · exact h3 j (by omega) hj2 o ho
    · exact ⟨le_refl _, by omega, fun j h1 h2 => by omega⟩

theorem take_sat {A : Type} {self o : List (Con A)} {d : Nat} (h1 : d ≤ self.length) (h2 : d ≤ o.length)
    (hid : ∀ j < d, (self[j]?.map Con.id) = (o[j]?.map Con.id)) (hsame : SameObjects [self, o]) (a : A) :
    Sat (self.take d) a ↔ Sat (o.take d) a := by
  have key : ∀ j (hj : j < d), (self[j]'(by omega)).holds = (o[j]'(by omega)).holds := by
    intro j hj
    have := hid j hj
    rw [List.getElem?_eq_getElem (by omega), List.getElem?_eq_getElem (by omega)] at this
    simp only [Option.map_some, Option.some.injEq] at this
    exact hsame self (by simp) o (by simp) _ (List.getElem_mem _) _ (List.getElem_mem _) this
  constructor
  · intro h c hc
    obtain ⟨j, hj, rfl⟩ := List.mem_take_iff_getElem.1 hc
    rw [← key j (by omega)]
    exact h _ (List.mem_take_iff_getElem.2 ⟨j, by omega, rfl⟩)
  · intro h c hc
    obtain ⟨j, hj, rfl⟩ := List.mem_take_iff_getElem.1 hc
    rw [key j (by omega)]
    exact h _ (List.mem_take_iff_getElem.2 ⟨j, by omega, rfl⟩)

theorem sat_take_drop {A : Type} (cs : List (Con A)) (d : Nat) (a : A) : Sat cs a ↔ Sat (cs.take d) a ∧ Sat (cs.drop d) a := by
  conv_lhs => rw [← List.take_append_drop d cs]
  simp only [Sat, List.mem_append]
  constructor
  · intro h; exact ⟨fun c hc => h c (.inl hc), fun c hc => h c (.inr hc)⟩
  · rintro ⟨h1, h2⟩ c (hc | hc); exacts [h1 c hc, h2 c hc]

/-- The merged constraints mean: some condition holds, and each state whose condition holds has
its constraints satisfied. -/
theorem C08_merged_meaning {A : Type} (self : List (Con A)) (others : List (List (Con A))) (conds : List (A → Bool))
    (hn : conds.length = others.length + 1) (hsame : SameObjects (self :: others)) (a : A) :
    SatP (mergeSolvers self others conds) a ↔
      (∃ c ∈ conds, c a = true) ∧ ∀ sc ∈ (self :: others).zip conds, sc.2 a = true → Sat sc.1 a := by
  set d := divergence self others (minLength self others) 0 with hd
  obtain ⟨_, hle, hid⟩ := divergence_spec self others (minLength self others) 0 (by omega)
  rw [← hd] at hle hid
  have hls := (foldl_min_le others self.length).1
  have hlo := (foldl_min_le others self.length).2
  have hpre : ∀ s ∈ self :: others, (Sat (self.take d) a ↔ Sat (s.take d) a) := by
    intro s hs
    rcases List.mem_cons.1 hs with rfl | hs
    · rfl
    · refine take_sat (le_trans hle hls) (le_trans hle (hlo s hs)) (fun j hj => hid j (by omega) hj s hs) ?_ a
      intro l hl l' hl'
      exact hsame l (by simp at hl; rcases hl with rfl | rfl <;> simp [hs]) l' (by simp at hl'; rcases hl' with rfl | rfl <;> simp [hs])
  have hunf : SatP (mergeSolvers self others conds) a ↔
      Sat (self.take d) a ∧ (∀ sc ∈ (self :: others).zip conds, sc.2 a = true → Sat (sc.1.drop d) a) ∧ ∃ c ∈ conds, c a = true := by
    simp only [SatP, mergeSolvers, ← hd, List.mem_append, List.mem_map, List.mem_flatMap, List.mem_singleton]
    constructor
    · intro h
      refine ⟨fun c hc => h _ (.inl (.inl ⟨c, hc, rfl⟩)), fun sc hsc ht c hc => ?_, ?_⟩
      · have := h _ (.inl (.inr ⟨sc, hsc, c, hc, rfl⟩))
        simpa [ht] using this
      · have := h _ (.inr rfl)
        simpa using this
    · rintro ⟨h1, h2, h3⟩ c ((⟨c, hc, rfl⟩ | ⟨sc, hsc, c, hc, rfl⟩) | rfl)
      · exact h1 c hc
      · cases ht : sc.2 a with
        | false => simp [ht]
        | true => simpa [ht] using h2 sc hsc ht c hc
      · simpa using h3
  rw [hunf]
  constructor
  · rintro ⟨h1, h2, h3⟩
    refine ⟨h3, fun sc hsc ht => (sat_take_drop _ d a).2 ⟨?_, h2 sc hsc ht⟩⟩
    exact (hpre sc.1 (List.of_mem_zip hsc).1).1 h1
  · rintro ⟨⟨c, hc, ht⟩, h2⟩
    obtain ⟨i, hi, rfl⟩ := List.getElem_of_mem hc
    have hi' : i < (self :: others).length := by simp; omega
    have hz : ((self :: others)[i], conds[i]) ∈ (self :: others).zip conds := by
      rw [List.mem_iff_getElem]
      exact ⟨i, by rw [List.length_zip]; omega, by simp⟩
    refine ⟨(hpre _ (List.getElem_mem hi')).2 ((sat_take_drop _ d a).1 (h2 _ hz ht)).1, ?_, ⟨_, hc, ht⟩⟩
    exact fun sc hsc hs => ((sat_take_drop _ d a).1 (h2 sc hsc hs)).2

/-- With exclusive conditions: together with the i-th condition the merged constraints say exactly
what state i's constraints say, and some condition always holds. -/
theorem C08_merged_is_union {A : Type} (self : List (Con A)) (others : List (List (Con A))) (conds : List (A → Bool))
    (hn : conds.length = others.length + 1) (hsame : SameObjects (self :: others)) (a : A)
    (hex : ∀ i j, ∀ (hi : i < conds.length) (hj : j < conds.length), conds[i] a = true → conds[j] a = true → i = j) :
    (∀ i (hi : i < conds.length), (SatP (mergeSolvers self others conds) a ∧ conds[i] a = true) ↔
      (Sat ((self :: others)[i]'(by simp; omega)) a ∧ conds[i] a = true)) ∧
    (SatP (mergeSolvers self others conds) a → ∃ c ∈ conds, c a = true) := by
  have hm := C08_merged_meaning self others conds hn hsame a
  refine ⟨fun i hi => ?_, fun h => (hm.1 h).1⟩
  have hz : ((self :: others)[i]'(by simp; omega), conds[i]) ∈ (self :: others).zip conds := by
    rw [List.mem_iff_getElem]
    exact ⟨i, by rw [List.length_zip]; simp; omega, by simp⟩
  constructor
  · rintro ⟨h1, h2⟩
    exact ⟨(hm.1 h1).2 _ hz h2, h2⟩
  · rintro ⟨h1, h2⟩
    refine ⟨hm.2 ⟨⟨_, List.getElem_mem hi, h2⟩, fun sc hsc ht => ?_⟩, h2⟩
    obtain ⟨j, hj, rfl⟩ := List.getElem_of_mem hsc
    rw [List.length_zip] at hj
    simp only [List.getElem_zip] at ht ⊢
    have := hex j i (by omega) hi ht h2
    subst this
    exact h1

/-! ### C09 -/

theorem mergeConds_get {V : Type} {n i : Nat} (hi : i < (mergeConds V n).length) (va : V × Nat) :
    (mergeConds V n)[i] va = true ↔ va.2 = i := by
  have h : (mergeConds V n)[i] = fun va => va.2 == i := by simp [mergeConds]
  rw [h]
  simp

/-- For n ≥ 2 states: the n conditions are exclusive, each fits in the flag, and the merged
constraints force exactly one of them; the merged state stands for the union of the states. -/
theorem C09_conditions {V : Type} (states : List (List (Con V))) (hn : 2 ≤ states.length) (hsame : SameObjects states) :
    ∃ merged, mergeStates states = some merged ∧ (mergeConds V states.length).length = states.length ∧
      (∀ i (hi : i < (mergeConds V states.length).length) (v : V), i < 2 ^ flagBits states.length ∧ (mergeConds V states.length)[i] (v, i) = true) ∧
      (∀ i j (hi : i < (mergeConds V states.length).length) (hj : j < (mergeConds V states.length).length) (va : V × Nat),
        (mergeConds V states.length)[i] va = true → (mergeConds V states.length)[j] va = true → i = j) ∧
      (∀ va, SatP merged va → ∃ i, ∃ hi : i < (mergeConds V states.length).length, (mergeConds V states.length)[i] va = true) ∧
      ∀ v, (∃ f < 2 ^ flagBits states.length, SatP merged (v, f)) ↔ ∃ s ∈ states, Sat s v := by
  match states, hn with
  | s :: t :: ts, hn =>
    have hlen : (mergeConds V (s :: t :: ts).length).length = (s :: t :: ts).length := by simp [mergeConds]
    have hex : ∀ i j (hi : i < (mergeConds V (s :: t :: ts).length).length) (hj : j < (mergeConds V (s :: t :: ts).length).length) (va : V × Nat),
        (mergeConds V (s :: t :: ts).length)[i] va = true → (mergeConds V (s :: t :: ts).length)[j] va = true → i = j := by
      intro i j hi hj va h1 h2
      rw [mergeConds_get] at h1 h2
      omega
    have hbits : ∀ i < (s :: t :: ts).length, i < 2 ^ flagBits (s :: t :: ts).length := fun i hi =>
      lt_of_lt_of_le hi (Nat.le_pow_clog (by omega) _)
    have hsame' : SameObjects (s.map lift :: (t :: ts).map (·.map (lift (V := V)))) := by
      have : s.map lift :: (t :: ts).map (·.map (lift (V := V))) = (s :: t :: ts).map (·.map lift) := rfl
      rw [this]
      intro l hl l' hl' c hc c' hc' hid
      obtain ⟨l0, hl0, rfl⟩ := List.mem_map.1 hl
      obtain ⟨l0', hl0', rfl⟩ := List.mem_map.1 hl'
      obtain ⟨c0, hc0, rfl⟩ := List.mem_map.1 hc
      obtain ⟨c0', hc0', rfl⟩ := List.mem_map.1 hc'
      have := hsame l0 hl0 l0' hl0' c0 hc0 c0' hc0' hid
      simp [lift, this]
    have hmean := fun va => C08_merged_meaning (s.map lift) ((t :: ts).map (·.map lift)) (mergeConds V (ts.length + 2)) (by simp [mergeConds]) hsame' va
    refine ⟨_, rfl, hlen, ?_, hex, ?_, ?_⟩
    · intro i hi v
      exact ⟨hbits i (hlen ▸ hi), (mergeConds_get hi _).2 rfl⟩
    · intro va h
      obtain ⟨⟨c, hc, ht⟩, _⟩ := (hmean va).1 h
      obtain ⟨i, hi, rfl⟩ := List.getElem_of_mem hc
      exact ⟨i, hi, ht⟩
    · intro v
      have hlift : ∀ (l : List (Con V)) f, Sat (l.map lift) (v, f) ↔ Sat l v := by
        intro l f
        simp only [Sat, List.mem_map, forall_exists_index, and_imp, forall_apply_eq_imp_iff₂, lift]
      have hzip : ∀ i (hi : i < (s :: t :: ts).length),
          ((s :: t :: ts)[i].map lift, (mergeConds V (ts.length + 2))[i]'(by simpa [mergeConds] using hi))
            ∈ (s.map lift :: (t :: ts).map (·.map (lift (V := V)))).zip (mergeConds V (ts.length + 2)) := by
        intro i hi
        rw [List.mem_iff_getElem]
        refine ⟨i, by simpa [List.length_zip, mergeConds] using hi, ?_⟩
        have : s.map lift :: (t :: ts).map (·.map (lift (V := V))) = (s :: t :: ts).map (·.map lift) := rfl
        simp only [this, List.getElem_zip, List.getElem_map]
      constructor
      · rintro ⟨f, hf, h⟩
        obtain ⟨⟨c, hc, ht⟩, h2⟩ := (hmean (v, f)).1 h
        obtain ⟨i, hi, rfl⟩ := List.getElem_of_mem hc
        have hi' : i < (s :: t :: ts).length := by simpa [mergeConds] using hi
        have := h2 _ (hzip i hi') ht
        exact ⟨_, List.getElem_mem hi', (hlift _ _).1 this⟩
      · rintro ⟨x, hx, hsat⟩
        obtain ⟨i, hi, rfl⟩ := List.getElem_of_mem hx
        refine ⟨i, hbits i hi, (hmean (v, i)).2 ⟨⟨_, List.getElem_mem (by simpa [mergeConds] using hi), (mergeConds_get (by simpa [mergeConds] using hi) _).2 rfl⟩, ?_⟩⟩
        intro sc hsc ht
        obtain ⟨j, hj, rfl⟩ := List.getElem_of_mem hsc
        have hj' : j < (s :: t :: ts).length := by
          rw [List.length_zip] at hj; simp at hj ⊢; omega
        simp only [List.getElem_zip] at ht ⊢
        have hji : i = j := (mergeConds_get (by simpa [mergeConds] using hj') _).1 ht
        subst hji
        have : (s.map lift :: (t :: ts).map (·.map (lift (V := V))))[i]'(by simpa using hj') = (s :: t :: ts)[i].map lift := by
          have : s.map lift :: (t :: ts).map (·.map (lift (V := V))) = (s :: t :: ts).map (·.map lift) := rfl
          simp only [this, List.getElem_map]
        rw [this]
        exact (hlift _ _).2 hsat

/-- Three states over one number: 0 < x; 0 < x ∧ x < 9; 0 < x ∧ x even. -/
def sampleStates : List (List (Con Nat)) :=
  [[⟨0, fun x => 0 < x⟩], [⟨0, fun x => 0 < x⟩, ⟨1, fun x => x < 9⟩], [⟨0, fun x => 0 < x⟩, ⟨2, fun x => x % 2 = 0⟩]]

example : SameObjects sampleStates ∧ flagBits sampleStates.length = 2 ∧
    (mergeStates sampleStates).map List.length = some 4 := by
  refine ⟨?_, by decide, by decide⟩
  intro l hl l' hl' c hc c' hc' h
  simp only [sampleStates, List.mem_cons, List.not_mem_nil, or_false] at hl hl'
  rcases hl with rfl | rfl | rfl <;> rcases hl' with rfl | rfl | rfl <;> simp at hc hc' <;>
    (try rcases hc with rfl | rfl) <;> (try rcases hc' with rfl | rfl) <;> simp_all

/-! ### C16 -/

/-- Reading a merged location gives, when the i-th condition holds, the value it had in state i. -/
theorem C16_values {A T : Type} (values : List ((A → T) × (A → Bool))) (dflt : A → T) (a : A)
    (hex : ∀ i j, ∀ (hi : i < values.length) (hj : j < values.length), values[i].2 a = true → values[j].2 a = true → i = j)
    (i : Nat) (hi : i < values.length) (hc : values[i].2 a = true) : mergeValues values dflt a = values[i].1 a := by
  cases values with
  | nil => simp at hi
  | cons v vs =>
    simp only [mergeValues, iteCases]
    cases hf : (vs.map fun x => (x.2, x.1)).find? (fun c => c.1 a) with
    | none =>
      cases i with
      | zero => rfl
      | succ i =>
        have hi2 : i < vs.length := by simpa using hi
        have := List.find?_eq_none.1 hf (vs[i].2, vs[i].1) (List.mem_map.2 ⟨vs[i], List.getElem_mem _, rfl⟩)
        exact absurd hc (by simpa using this)
    | some c =>
      have hm := List.mem_of_find?_eq_some hf
      have ht := List.find?_some hf
      obtain ⟨x, hx, rfl⟩ := List.mem_map.1 hm
      obtain ⟨j, hj, rfl⟩ := List.getElem_of_mem hx
      have := hex i (j + 1) hi (by simpa using hj) hc (by simpa using ht)
      subst this
      rfl

example : mergeValues [(fun _ => 10, fun a : Nat => a == 0), (fun _ => 11, fun a => a == 1), (fun _ => 12, fun a => a == 2)] (fun _ => 0) 1 = 11 := by
  decide

/-- Recorded tuples with the same identity are the same tuple. -/
def SameSegments {A T : Type} (lists : List (List (Segment A T))) : Prop :=
  ∀ l ∈ lists, ∀ l' ∈ lists, ∀ c ∈ l, ∀ c' ∈ l', c.id = c'.id → c.what = c'.what ∧ c.cond = c'.cond

theorem segDivergence_spec {A T : Type} (self : List (Segment A T)) (others : List (List (Segment A T))) :
    ∀ fuel i, i + fuel ≤ minLength self others →
      i ≤ segDivergence self others fuel i ∧ segDivergence self others fuel i ≤ minLength self others ∧
      ∀ j, i ≤ j → j < segDivergence self others fuel i → ∀ o ∈ others, (self[j]?.map Segment.id) = (o[j]?.map Segment.id) := by
  intro fuel
  induction fuel with
  | zero => intro i hi; exact ⟨le_refl _, by simpa [segDivergence] using hi, fun j h1 h2 => by simp [segDivergence] at h2; omega⟩
  | succ fuel ih =>
    intro i hi
    rw [segDivergence]
    split
    · rename_i hall
      obtain ⟨h1, h2, h3⟩ := ih (i + 1) (by omega)
      refine ⟨by omega, h2, fun j hj1 hj2 o ho => ?_⟩
      by_cases hij : j = i
      · subst hij
        simpa using List.all_eq_true.1 hall o ho
      · exact h3 j (by omega) hj2 o ho
    · exact ⟨le_refl _, by omega, fun j h1 h2 => by omega⟩

/-- The calls of a recorded path that happened under an assignment. -/
def calls {A T : Type} (a : A) (p : List (T × (A → Bool))) : List T := (p.filter fun s => s.2 a).map (·.1)

def plain {A T : Type} (p : List (Segment A T)) : List (T × (A → Bool)) := p.map fun s => (s.what, s.cond)

theorem calls_append {A T : Type} (a : A) (p q : List (T × (A → Bool))) : calls a (p ++ q) = calls a p ++ calls a q := by
  simp [calls]

theorem calls_flatMap_single {A T : Type} (a : A) (l : List (List (Segment A T) × (A → Bool))) (d i : Nat) (hi : i < l.length)
    (hc : l[i].2 a = true) (hex : ∀ j (hj : j < l.length), l[j].2 a = true → j = i) :
    calls a (l.flatMap fun sc => (sc.1.drop d).map fun s => (s.what, fun a => s.cond a && sc.2 a)) = calls a (plain (l[i].1.drop d)) := by
  have hoff : ∀ sc : List (Segment A T) × (A → Bool), sc.2 a = false →
      calls a ((sc.1.drop d).map fun s => (s.what, fun a => s.cond a && sc.2 a)) = [] := by
    intro sc h
    generalize sc.1.drop d = l'
    simp [calls, List.filter_map, Function.comp_def, h]
  have hon : ∀ sc : List (Segment A T) × (A → Bool), sc.2 a = true →
      calls a ((sc.1.drop d).map fun s => (s.what, fun a => s.cond a && sc.2 a)) = calls a (plain (sc.1.drop d)) := by
    intro sc h
    generalize sc.1.drop d = l'
    simp [calls, plain, List.filter_map, Function.comp_def, h]
  induction l generalizing i with
  | nil => simp at hi
  | cons x t ih =>
    rw [List.flatMap_cons, calls_append]
    cases i with
    | zero =>
      have hx : x.2 a = true := hc
      have hrest : calls a (t.flatMap fun sc => (sc.1.drop d).map fun s => (s.what, fun a => s.cond a && sc.2 a)) = [] := by
        have : ∀ sc ∈ t, sc.2 a = false := by
          intro sc hsc
          obtain ⟨j, hj, rfl⟩ := List.getElem_of_mem hsc
          by_contra hne
          have := hex (j + 1) (by simpa using hj) (by simpa using hne)
          omega
        clear ih hc hex hi
        induction t with
        | nil => rfl
        | cons y t ih2 =>
          rw [List.flatMap_cons, calls_append, hoff y (this y (by simp)), List.nil_append]
          exact ih2 fun sc hsc => this sc (by simp [hsc])
      rw [hrest, List.append_nil, hon x hx]
      rfl
    | succ i =>
      have hx : x.2 a = false := by
        by_contra hne
        have := hex 0 (by simp) (by simpa using hne)
        omega
      rw [hoff x hx, List.nil_append]
      exact ih i (by simpa using hi) hc fun j hj hj' => by
        have := hex (j + 1) (by simpa using hj) hj'
        omega

/-- The merged call path, restricted to the segments whose condition holds under the i-th merge
condition, is the path of state i. -/
theorem C16_paths {A T : Type} (self : List (Segment A T)) (others : List (List (Segment A T))) (conds : List (A → Bool))
    (hn : conds.length = others.length + 1) (hsame : SameSegments (self :: others)) (a : A)
    (hex : ∀ i j, ∀ (hi : i < conds.length) (hj : j < conds.length), conds[i] a = true → conds[j] a = true → i = j)
    (i : Nat) (hi : i < conds.length) (hc : conds[i] a = true) :
    calls a (mergePaths self others conds) = calls a (plain ((self :: others)[i]'(by simp; omega))) := by
  set d := segDivergence self others (minLength self others) 0 with hd
  obtain ⟨_, hle, hid⟩ := segDivergence_spec self others (minLength self others) 0 (by omega)
  rw [← hd] at hle hid
  have hls := (foldl_min_le others self.length).1
  have hlo := (foldl_min_le others self.length).2
  have hi' : i < (self :: others).length := by simp; omega
  have hpre : plain (self.take d) = plain ((self :: others)[i].take d) := by
    have hmem : (self :: others)[i] ∈ self :: others := List.getElem_mem hi'
    generalize (self :: others)[i] = o at hmem
    rcases List.mem_cons.1 hmem with rfl | ho
    · rfl
    · have h1 : d ≤ self.length := le_trans hle hls
      have h2 : d ≤ o.length := le_trans hle (hlo o ho)
      apply List.ext_getElem
      · simp [plain]; omega
      · intro j hj1 hj2
        simp only [plain, List.length_map, List.length_take] at hj1 hj2
        simp only [plain, List.getElem_map, List.getElem_take]
        have hj := hid j (by omega) (by omega) o ho
        rw [List.getElem?_eq_getElem (by omega), List.getElem?_eq_getElem (by omega)] at hj
        simp only [Option.map_some, Option.some.injEq] at hj
        obtain ⟨e1, e2⟩ := hsame self (by simp) o (by simp [ho]) _ (List.getElem_mem _) _ (List.getElem_mem _) hj
        rw [e1, e2]
  have hz : i < ((self :: others).zip conds).length := by rw [List.length_zip]; omega
  have hfm := calls_flatMap_single a ((self :: others).zip conds) d i hz (by simpa using hc) (by
    intro j hj ht
    rw [List.length_zip] at hj
    exact hex j i (by omega) hi (by simpa using ht) hc)
  have : mergePaths self others conds = plain (self.take d) ++
      ((self :: others).zip conds).flatMap fun sc => (sc.1.drop d).map fun s => (s.what, fun a => s.cond a && sc.2 a) := rfl
  rw [this, calls_append, hfm, hpre, ← calls_append]
  simp only [List.getElem_zip, plain, ← List.map_append, List.take_append_drop]

example : calls 1 (mergePaths [⟨0, "a", fun _ : Nat => true⟩, ⟨1, "b", fun _ => true⟩] [[⟨0, "a", fun _ => true⟩, ⟨2, "c", fun _ => true⟩]]
    [fun a => a == 0, fun a => a == 1]) = ["a", "c"] := by decide

/-! ### C11 -/

theorem place_perm {S : Type} (ok : S → S → Bool) (piles : List (List S)) (s : S) :
    (place ok piles s).flatten.Perm (piles.flatten ++ [s]) := by
  induction piles with
  | nil => simp [place]
  | cons pile piles ih =>
    cases pile with
    | nil => simpa [place] using ih
    | cons c t =>
      simp only [place]
      split
      · simp only [List.flatten_cons, List.cons_append, List.append_assoc, List.perm_cons]
        exact List.Perm.append_left _ (List.perm_append_comm (l₁ := [s]))
      · simp only [List.flatten_cons, List.append_assoc]
        exact List.Perm.append_left _ ih

theorem place_good {S : Type} (ok : S → S → Bool) (piles : List (List S)) (s : S)
    (h : ∀ p ∈ piles, ∃ c t, p = c :: t ∧ ∀ x ∈ t, ok c x = true) :
    ∀ p ∈ place ok piles s, ∃ c t, p = c :: t ∧ ∀ x ∈ t, ok c x = true := by
  induction piles with
  | nil => intro p hp; simp only [place, List.mem_singleton] at hp; exact ⟨s, [], hp, by simp⟩
  | cons pile piles ih =>
    obtain ⟨c, t, rfl, hc⟩ := h pile (by simp)
    intro p hp
    simp only [place] at hp
    split at hp
    · rename_i hok
      rcases List.mem_cons.1 hp with rfl | hp
      · refine ⟨c, t ++ [s], by simp, fun x hx => ?_⟩
        rcases List.mem_append.1 hx with hx | hx
        · exact hc x hx
        · simp at hx; subst hx; exact hok
      · exact h p (by simp [hp])
    · rcases List.mem_cons.1 hp with rfl | hp
      · exact ⟨c, t, rfl, hc⟩
      · exact ih (fun q hq => h q (by simp [hq])) p hp

theorem triageBy_good {S : Type} (ok : S → S → Bool) (states : List S) :
    (triageBy ok states).flatten.Perm states ∧ ∀ p ∈ triageBy ok states, ∃ c t, p = c :: t ∧ ∀ x ∈ t, ok c x = true := by
  cases states with
  | nil => simp [triageBy]
  | cons s ss =>
    have key : ∀ (ss : List S) (piles : List (List S)), (∀ p ∈ piles, ∃ c t, p = c :: t ∧ ∀ x ∈ t, ok c x = true) →
        (ss.foldl (place ok) piles).flatten.Perm (piles.flatten ++ ss) ∧
        ∀ p ∈ ss.foldl (place ok) piles, ∃ c t, p = c :: t ∧ ∀ x ∈ t, ok c x = true := by
      intro ss
      induction ss with
      | nil => intro piles h; simpa using h
      | cons x ss ih =>
        intro piles h
        obtain ⟨h1, h2⟩ := ih (place ok piles x) (place_good ok piles x h)
        refine ⟨h1.trans ?_, h2⟩
        have := (place_perm ok piles x).append_right ss
        simpa using this
    simpa [triageBy] using key ss [[s]] (by simp)

theorem nodup_eraseDups' {R : Type} [DecidableEq R] : ∀ (n : Nat) (l : List R), l.length ≤ n → l.eraseDups.Nodup := by
  intro n
  induction n with
  | zero => intro l hl; simp at hl; subst hl; simp
  | succ n ih =>
    intro l hl
    cases l with
    | nil => simp
    | cons a t =>
      rw [List.eraseDups_cons, List.nodup_cons]
      refine ⟨?_, ih _ (le_trans (List.length_filter_le _ _) (by simpa using hl))⟩
      simp [List.mem_eraseDups]

theorem groupBy_perm {S R : Type} [DecidableEq R] (ret : S → R) (pile : List S) : (groupBy ret pile).flatten.Perm pile := by
  have key : ∀ (keys : List R), keys.Nodup → ∀ pile : List S, (∀ x ∈ pile, ret x ∈ keys) →
      (keys.map fun r => pile.filter fun s => ret s == r).flatten.Perm pile := by
    intro keys
    induction keys with
    | nil => intro _ pile h; cases pile with
      | nil => simp
      | cons x t => exact absurd (h x (by simp)) (by simp)
    | cons k keys ih =>
      intro hnd pile h
      rw [List.nodup_cons] at hnd
      have hrest := ih hnd.2 (pile.filter fun s => !(ret s == k)) (by
        intro x hx
        simp only [List.mem_filter, Bool.not_eq_true', beq_eq_false_iff_ne] at hx
        rcases List.mem_cons.1 (h x hx.1) with h1 | h1
        · exact absurd h1 hx.2
        · exact h1)
      have heq : (keys.map fun r => (pile.filter fun s => !(ret s == k)).filter fun s => ret s == r) = keys.map fun r => pile.filter fun s => ret s == r := by
        apply List.map_congr_left
        intro r hr
        rw [List.filter_filter]
        apply List.filter_congr
        intro x _
        by_cases hx : ret x = r
        · have : r ≠ k := fun e => hnd.1 (e ▸ hr)
          simp [hx, this]
        · simp [hx]
      rw [heq] at hrest
      simp only [List.map_cons, List.flatten_cons]
      refine (List.Perm.append_left _ hrest).trans ?_
      exact List.filter_append_perm _ _
  exact key _ (nodup_eraseDups' _ _ (le_refl _)) pile fun x hx => by
    simp only [List.mem_eraseDups, List.mem_map]
    exact ⟨x, hx, rfl⟩

theorem groupBy_good {S R : Type} [DecidableEq R] (ret : S → R) (pile : List S) :
    ∀ p ∈ groupBy ret pile, p ≠ [] ∧ (∀ x ∈ p, x ∈ pile) ∧ ∀ x ∈ p, ∀ y ∈ p, ret x = ret y := by
  intro p hp
  simp only [groupBy, List.mem_map, List.mem_eraseDups] at hp
  obtain ⟨r, ⟨x, hx, rfl⟩, rfl⟩ := hp
  refine ⟨List.ne_nil_of_mem (List.mem_filter.2 ⟨hx, by simp⟩), fun y hy => (List.mem_filter.1 hy).1, ?_⟩
  intro y hy z hz
  have h1 := (List.mem_filter.1 hy).2
  have h2 := (List.mem_filter.1 hz).2
  simp only [beq_iff_eq] at h1 h2
  rw [h1, h2]

theorem flatMap_perm {S : Type} (f : List S → List (List S)) (piles : List (List S)) (h : ∀ p ∈ piles, (f p).flatten.Perm p) :
    (piles.flatMap f).flatten.Perm piles.flatten := by
  induction piles with
  | nil => simp
  | cons p t ih =>
    rw [List.flatMap_cons, List.flatten_append, List.flatten_cons]
    exact (h p (by simp)).append (ih fun q hq => h q (by simp [hq]))

/-- Triage is a partition: the piles together contain every state exactly as often as the input,
no pile is empty, all of a pile have the same call stack, the same return value when that is asked
for, and are compatible with the first of the pile. -/
theorem C11_partition {S K R : Type} [DecidableEq K] [DecidableEq R] (stack : S → K) (ret : Option (S → R)) (canMerge : S → S → Bool)
    (states : List S) :
    (triageForMerge stack ret canMerge states).flatten.Perm states ∧
    ∀ p ∈ triageForMerge stack ret canMerge states, p ≠ [] ∧ (∀ x ∈ p, ∀ y ∈ p, stack x = stack y) ∧
      (∀ r, ret = some r → ∀ x ∈ p, ∀ y ∈ p, r x = r y) ∧
      ∃ c t, p = c :: t ∧ ∀ x ∈ t, canMerge c x = true := by
  obtain ⟨hp1, hg1⟩ := triageBy_good (fun a b => stack a == stack b) states
  set t1 := triageBy (fun a b => stack a == stack b) states with ht1
  set t2 := (match ret with | some r => t1.flatMap (groupBy r) | none => t1) with ht2
  have hsame1 : ∀ p ∈ t1, p ≠ [] ∧ ∀ x ∈ p, ∀ y ∈ p, stack x = stack y := by
    intro p hp
    obtain ⟨c, t, rfl, hc⟩ := hg1 p hp
    have : ∀ x ∈ c :: t, stack x = stack c := by
      intro x hx
      rcases List.mem_cons.1 hx with rfl | hx
      · rfl
      · exact (by simpa using hc x hx : stack c = stack x).symm
    exact ⟨by simp, fun x hx y hy => by rw [this x hx, this y hy]⟩
  have h2 : t2.flatten.Perm t1.flatten ∧ ∀ p ∈ t2, p ≠ [] ∧ (∀ x ∈ p, ∀ y ∈ p, stack x = stack y) ∧
      ∀ r, ret = some r → ∀ x ∈ p, ∀ y ∈ p, r x = r y := by
    cases hret : ret with
    | none =>
      simp only [ht2, hret]
      exact ⟨List.Perm.refl _, fun p hp => ⟨(hsame1 p hp).1, (hsame1 p hp).2, by simp⟩⟩
    | some r =>
      simp only [ht2, hret]
      refine ⟨flatMap_perm _ _ fun p _ => groupBy_perm r p, fun p hp => ?_⟩
      obtain ⟨q, hq, hpq⟩ := List.mem_flatMap.1 hp
      obtain ⟨g1, g2, g3⟩ := groupBy_good r q p hpq
      refine ⟨g1, fun x hx y hy => (hsame1 q hq).2 x (g2 x hx) y (g2 y hy), ?_⟩
      rintro r' h
      obtain rfl : r = r' := by simpa using h
      exact g3
  have hfin : triageForMerge stack ret canMerge states = t2.flatMap fun pile => if pile.length = 1 then [pile] else triageBy canMerge pile := rfl
  rw [hfin]
  constructor
  · refine (flatMap_perm _ _ fun p _ => ?_).trans (h2.1.trans hp1)
    split
    · simp
    · exact (triageBy_good canMerge p).1
  · intro p hp
    obtain ⟨q, hq, hpq⟩ := List.mem_flatMap.1 hp
    obtain ⟨q1, q2, q3⟩ := h2.2 q hq
    split at hpq
    · rename_i hlen
      simp only [List.mem_singleton] at hpq
      subst hpq
      refine ⟨q1, q2, q3, ?_⟩
      match p, hlen with
      | [c], _ => exact ⟨c, [], rfl, by simp⟩
    · obtain ⟨hperm, hgood⟩ := triageBy_good canMerge q
      obtain ⟨c, t, rfl, hc⟩ := hgood p hpq
      have hsub : ∀ x ∈ c :: t, x ∈ q := fun x hx => hperm.subset (List.mem_flatten.2 ⟨_, hpq, hx⟩)
      exact ⟨by simp, fun x hx y hy => q2 x (hsub x hx) y (hsub y hy),
        fun r hr x hx y hy => q3 r hr x (hsub x hx) y (hsub y hy), c, t, rfl, hc⟩

example : triageForMerge (fun n : Nat => n % 2) (some fun n => n % 3) (fun a b => a / 10 == b / 10) [1, 2, 7, 3, 11, 13, 5, 9] =
    [[1, 7], [13], [3, 9], [11], [5], [2]] := by decide

/-! ### C12 -/

theorem getIfConstant_none {A D : Type} (s : St A D) (g : A → Bool) : getIfConstant s g = none ↔ ¬ ∃ a, s.admits a := by
  unfold getIfConstant
  split
  · simp [*]
  · split
    · simp_all
    · split <;> simp_all

/-- Forking: fails only on an infeasible state; otherwise every resulting state is feasible, has
the guard constantly true or false as announced and nothing but its constraints changed, and
together the results admit exactly the assignments of the original state. -/
theorem C12_fork {A D : Type} (s : St A D) (g : A → Bool) :
    (forkGuarded s g = none ↔ ¬ ∃ a, s.admits a) ∧
    ∀ out, forkGuarded s g = some out →
      (∀ bs ∈ out, (∃ a, bs.2.admits a) ∧ (∀ a, bs.2.admits a → g a = bs.1) ∧ bs.2.data = s.data) ∧
      (∀ a, s.admits a ↔ ∃ bs ∈ out, bs.2.admits a) ∧
      (out.map (·.1)).Nodup := by
  have hadd : ∀ (h : A → Bool) a, St.admits ({ s with cons := s.cons ++ [h] }) a ↔ s.admits a ∧ h a = true := by
    intro h a
    simp only [St.admits, List.mem_append, List.mem_singleton]
    constructor
    · intro hh; exact ⟨fun c hc => hh c (.inl hc), hh h (.inr rfl)⟩
    · rintro ⟨h1, h2⟩ c (hc | rfl); exacts [h1 c hc, h2]
  unfold forkGuarded getIfConstant
  by_cases h0 : ∃ a, s.admits a
  · rw [if_neg (not_not.2 h0)]
    by_cases h1 : ∃ a, s.admits a ∧ g a = false
    · rw [if_neg (not_not.2 h1)]
      by_cases h2 : ∃ a, s.admits a ∧ g a = true
      · rw [if_neg (not_not.2 h2)]
        refine ⟨by simp [h0], ?_⟩
        intro out hout
        simp only [Option.bind_eq_bind, Option.bind_some, Option.some.injEq] at hout
        subst hout
        refine ⟨?_, ?_, by simp⟩
        · intro bs hbs
          simp only [List.mem_cons, List.not_mem_nil, or_false] at hbs
          rcases hbs with rfl | rfl
          · refine ⟨?_, fun a ha => ?_, rfl⟩
            · obtain ⟨a, ha, hg⟩ := h1
              exact ⟨a, (hadd _ a).2 ⟨ha, by simp [hg]⟩⟩
            · simpa using ((hadd _ a).1 ha).2
          · refine ⟨?_, fun a ha => ?_, rfl⟩
            · obtain ⟨a, ha, hg⟩ := h2
              exact ⟨a, (hadd _ a).2 ⟨ha, hg⟩⟩
            · simpa using ((hadd _ a).1 ha).2
        · intro a
          simp only [List.mem_cons, List.not_mem_nil, or_false, exists_eq_or_imp, exists_eq_left, hadd]
          cases g a <;> simp
      · rw [if_pos h2]
        refine ⟨by simp [h0], ?_⟩
        intro out hout
        simp only [Option.bind_eq_bind, Option.bind_some, Option.some.injEq] at hout
        subst hout
        refine ⟨?_, by simp, by simp⟩
        intro bs hbs
        simp only [List.mem_singleton] at hbs
        subst hbs
        refine ⟨h0, fun a ha => ?_, rfl⟩
        cases hg : g a with
        | false => rfl
        | true => exact absurd ⟨a, ha, hg⟩ h2
    · rw [if_pos h1]
      refine ⟨by simp [h0], ?_⟩
      intro out hout
      simp only [Option.bind_eq_bind, Option.bind_some, Option.some.injEq] at hout
      subst hout
      refine ⟨?_, by simp, by simp⟩
      intro bs hbs
      simp only [List.mem_singleton] at hbs
      subst hbs
      refine ⟨h0, fun a ha => ?_, rfl⟩
      cases hg : g a with
      | true => rfl
      | false => exact absurd ⟨a, ha, hg⟩ h1
  · rw [if_pos h0]
    simp [h0]

/-- A state where the guard can go both ways is forked in two. -/
example : ∃ out, forkGuarded (⟨[fun a : Nat => a < 10], "x"⟩ : St Nat String) (fun a => a % 2 == 0) = some out ∧ out.length = 2 := by
  have h0 : ∃ a, (⟨[fun a : Nat => a < 10], "x"⟩ : St Nat String).admits a := ⟨0, by simp [St.admits]⟩
  have h1 : ∃ a, (⟨[fun a : Nat => a < 10], "x"⟩ : St Nat String).admits a ∧ (a % 2 == 0) = false := ⟨1, by simp [St.admits], by decide⟩
  have h2 : ∃ a, (⟨[fun a : Nat => a < 10], "x"⟩ : St Nat String).admits a ∧ (a % 2 == 0) = true := ⟨2, by simp [St.admits], by decide⟩
  refine ⟨[(false, ⟨[fun a => a < 10, fun a => !(a % 2 == 0)], "x"⟩), (true, ⟨[fun a => a < 10, fun a => a % 2 == 0], "x"⟩)], ?_, rfl⟩
  unfold forkGuarded getIfConstant
  rw [if_neg (not_not.2 h0), if_neg (not_not.2 h1), if_neg (not_not.2 h2)]
  rfl

/-! ### C10 -/

/-- The concrete executions: `Reach c c'` is some number of steps. -/
inductive Reach {C : Type} (cstep : C → C → Prop) : C → C → Prop
  | refl (c : C) : Reach cstep c c
  | tail {a b c : C} : Reach cstep a b → cstep b c → Reach cstep a c

theorem Reach.trans {C : Type} {cstep : C → C → Prop} {a b c : C} (h1 : Reach cstep a b) (h2 : Reach cstep b c) : Reach cstep a c := by
  induction h2 with
  | refl => exact h1
  | tail _ h ih => exact .tail ih h

theorem Reach.cases_head {C : Type} {cstep : C → C → Prop} {a c : C} (h : Reach cstep a c) : a = c ∨ ∃ b, cstep a b ∧ Reach cstep b c := by
  induction h with
  | refl => exact .inl rfl
  | tail h1 h2 ih =>
    rcases ih with rfl | ⟨b, hb, hr⟩
    · exact .inr ⟨_, h2, .refl _⟩
    · exact .inr ⟨b, hb, .tail hr h2⟩

/-- What the exploration relies on: `γ s c` says that the symbolic state s stands for the
concrete state c. Stepping is exact, a state that has successors stands for no ended execution,
merging is exact and triage is a partition. -/
structure Faithful {S C : Type} (sys : Sys S) (γ : S → C → Prop) (cstep : C → C → Prop) : Prop where
  succ : ∀ s c', (∃ s' ∈ sys.succ s, γ s' c') ↔ ∃ c, γ s c ∧ cstep c c'
  ended : ∀ s, sys.succ s ≠ [] → ∀ c, γ s c → ∃ c', cstep c c'
  merge : ∀ pile m, sys.merge pile = some m → ∀ c, γ m c ↔ ∃ s ∈ pile, γ s c
  triage : ∀ l, (sys.triage l).flatten.Perm l

theorem popLowest_append {S : Type} (sys : Sys S) (l : List S) : (popLowest sys l).1 ++ (popLowest sys l).2 = l := by
  cases l with
  | nil => rfl
  | cons s t => exact List.takeWhile_append_dropWhile

theorem mergePiles_covers {S C : Type} {sys : Sys S} {γ : S → C → Prop} {cstep : C → C → Prop} (hf : Faithful sys γ cstep) (piles : List (List S)) (c : C) :
    (∃ s ∈ mergePiles sys piles, γ s c) ↔ ∃ s ∈ piles.flatten, γ s c := by
  have hpile : ∀ pile, (∃ s ∈ (match sys.merge pile with | none => pile | some m => [m]), γ s c) ↔ ∃ s ∈ pile, γ s c := by
    intro pile
    cases hm : sys.merge pile with
    | none => rfl
    | some m => simpa using hf.merge pile m hm c
  simp only [mergePiles, List.mem_flatMap, List.mem_flatten]
  constructor
  · rintro ⟨s, ⟨pile, hp, hs⟩, hg⟩
    obtain ⟨x, hx, hxg⟩ := (hpile pile).1 ⟨s, hs, hg⟩
    exact ⟨x, ⟨pile, hp, hx⟩, hxg⟩
  · rintro ⟨s, ⟨pile, hp, hs⟩, hg⟩
    obtain ⟨x, hx, hxg⟩ := (hpile pile).2 ⟨s, hs, hg⟩
    exact ⟨x, ⟨pile, hp, hx⟩, hxg⟩

/-- One step: what the stashes stand for afterwards. -/
theorem step_covers {S C : Type} {sys : Sys S} {γ : S → C → Prop} {cstep : C → C → Prop} (hf : Faithful sys γ cstep)
    (s : S) (others deferred dead : List S) (c : C) :
    (∃ x ∈ (step sys ⟨s :: others, deferred, dead⟩).active ++ (step sys ⟨s :: others, deferred, dead⟩).deferred, γ x c) ↔
      ∃ x ∈ deferred ++ others ++ sys.succ s, γ x c := by
  simp only [step]
  split
  · rename_i h
    simp only [List.isEmpty_iff] at h
    rw [h]
    simp
  · generalize hd : deferred ++ others ++ sys.succ s = d
    have hperm : ((popLowest sys (sortDeferred sys d).reverse).1 ++ (popLowest sys (sortDeferred sys d).reverse).2).Perm d := by
      rw [popLowest_append]
      exact (List.reverse_perm _).trans (List.perm_insertionSort _ _)
    set lr := popLowest sys (sortDeferred sys d).reverse with hlr
    have hrhs : (∃ x ∈ d, γ x c) ↔ (∃ x ∈ lr.1, γ x c) ∨ ∃ x ∈ lr.2, γ x c := by
      constructor
      · rintro ⟨x, hx, hg⟩
        rcases List.mem_append.1 (hperm.symm.subset hx) with h | h
        exacts [.inl ⟨x, h, hg⟩, .inr ⟨x, h, hg⟩]
      · rintro (⟨x, hx, hg⟩ | ⟨x, hx, hg⟩)
        exacts [⟨x, hperm.subset (List.mem_append.2 (.inl hx)), hg⟩, ⟨x, hperm.subset (List.mem_append.2 (.inr hx)), hg⟩]
    have hact : (∃ x ∈ (if (lr.1.head?.map sys.justReturned).getD false then lr.1 else mergePiles sys (sys.triage lr.1)), γ x c) ↔ ∃ x ∈ lr.1, γ x c := by
      split
      · rfl
      · rw [mergePiles_covers hf]
        constructor
        · rintro ⟨x, hx, hg⟩; exact ⟨x, (hf.triage _).subset hx, hg⟩
        · rintro ⟨x, hx, hg⟩; exact ⟨x, (hf.triage _).symm.subset hx, hg⟩
    rw [hrhs, ← hact]
    simp only [List.mem_append, List.mem_reverse]
    constructor
    · rintro ⟨x, hx | hx, hg⟩
      exacts [.inl ⟨x, hx, hg⟩, .inr ⟨x, hx, hg⟩]
    · rintro (⟨x, hx, hg⟩ | ⟨x, hx, hg⟩)
      exacts [⟨x, .inl hx, hg⟩, ⟨x, .inr hx, hg⟩]

theorem step_dead {S : Type} (sys : Sys S) (s : S) (others deferred dead : List S) :
    (step sys ⟨s :: others, deferred, dead⟩).deadended = if sys.succ s = [] then dead ++ [s] else dead := by
  simp only [step]
  split <;> rfl

/-- A state that reached its end is kept as a final one, and nothing is left behind: when no
state is active, none is deferred. -/
theorem step_no_leftover {S C : Type} {sys : Sys S} {γ : S → C → Prop} {cstep : C → C → Prop} (hf : Faithful sys γ cstep)
    (s : S) (others deferred dead : List S) (h : (step sys ⟨s :: others, deferred, dead⟩).active = []) :
    (step sys ⟨s :: others, deferred, dead⟩).deferred = [] := by
  simp only [step] at h ⊢
  split
  · rfl
  · rename_i hne
    rw [if_neg hne] at h
    exfalso
    generalize hd : deferred ++ others ++ sys.succ s = d at h hne
    have hlen : (sortDeferred sys d).reverse ≠ [] := by
      intro h0
      have : d.length = 0 := by
        have := congrArg List.length h0
        simpa [sortDeferred] using this
      simp [List.length_eq_zero_iff.1 this] at hne
    obtain ⟨x, t, hxt⟩ := List.exists_cons_of_ne_nil hlen
    rw [hxt] at h
    change (if ((List.takeWhile (fun y => sys.pc y == sys.pc x) (x :: t)).head?.map sys.justReturned).getD false = true then
      List.takeWhile (fun y => sys.pc y == sys.pc x) (x :: t) else mergePiles sys (sys.triage (List.takeWhile (fun y => sys.pc y == sys.pc x) (x :: t)))) = [] at h
    have hmem : x ∈ (x :: t).takeWhile (fun y => sys.pc y == sys.pc x) := by simp
    split at h
    · rw [h] at hmem; simp at hmem
    · have := (hf.triage _).symm.subset hmem
      obtain ⟨pile, hp, hx⟩ := List.mem_flatten.1 this
      simp only [mergePiles, List.flatMap_eq_nil_iff] at h
      have hpile := h pile hp
      cases hm : sys.merge pile with
      | none => rw [hm] at hpile; simp only at hpile; rw [hpile] at hx; simp at hx
      | some m => rw [hm] at hpile; simp at hpile

/-- What holds of the stashes at every moment of an exploration of `s0`. -/
structure Exploring {S C : Type} (γ : S → C → Prop) (cstep : C → C → Prop) (s0 : S) (st : Stashes S) : Prop where
  sound : ∀ s ∈ st.active ++ st.deferred ++ st.deadended, ∀ c, γ s c → ∃ c0, γ s0 c0 ∧ Reach cstep c0 c
  final : ∀ s ∈ st.deadended, ∀ c, γ s c → ¬ ∃ c', cstep c c'
  complete : ∀ c0 c, γ s0 c0 → Reach cstep c0 c → (¬ ∃ c', cstep c c') →
    (∃ d ∈ st.deadended, γ d c) ∨ ∃ s ∈ st.active ++ st.deferred, ∃ c1, γ s c1 ∧ Reach cstep c1 c
  noLeftover : st.active = [] → st.deferred = []

theorem exploring_step {S C : Type} {sys : Sys S} {γ : S → C → Prop} {cstep : C → C → Prop} (hf : Faithful sys γ cstep)
    (s0 : S) (st : Stashes S) (h : Exploring γ cstep s0 st) : Exploring γ cstep s0 (step sys st) := by
  obtain ⟨active, deferred, dead⟩ := st
  cases active with
  | nil => exact h
  | cons s others =>
    have hcov := step_covers hf s others deferred dead
    have hdead := step_dead sys s others deferred dead
    set st' := step sys ⟨s :: others, deferred, dead⟩ with hst'
    have hold : ∀ x c, x ∈ deferred ++ others ++ sys.succ s → γ x c → ∃ c0, γ s0 c0 ∧ Reach cstep c0 c := by
      intro x c hx hg
      rcases List.mem_append.1 hx with hx | hx
      · exact h.sound x (by simp at hx ⊢; tauto) c hg
      · obtain ⟨b, hb, hbc⟩ := (hf.succ s c).1 ⟨x, hx, hg⟩
        obtain ⟨c0, h0, hr⟩ := h.sound s (by simp) b hb
        exact ⟨c0, h0, .tail hr hbc⟩
    have hdmem : ∀ x ∈ st'.deadended, x ∈ dead ∨ (x = s ∧ sys.succ s = []) := by
      intro x hx
      rw [hdead] at hx
      split at hx
      · rcases List.mem_append.1 hx with hx | hx
        · exact .inl hx
        · exact .inr ⟨by simpa using hx, by assumption⟩
      · exact .inl hx
    have hsub : ∀ x ∈ dead, x ∈ st'.deadended := by
      intro x hx
      rw [hdead]
      split
      · simp [hx]
      · exact hx
    refine ⟨?_, ?_, ?_, ?_⟩
    · intro x hx c hg
      rcases List.mem_append.1 hx with hx | hx
      · obtain ⟨y, hy, hyg⟩ := (hcov c).1 ⟨x, hx, hg⟩
        exact hold y c hy hyg
      · rcases hdmem x hx with hx | ⟨rfl, _⟩
        · exact h.sound x (by simp [hx]) c hg
        · exact h.sound x (by simp) c hg
    · intro x hx c hg
      rcases hdmem x hx with hx | ⟨rfl, he⟩
      · exact h.final x hx c hg
      · rintro ⟨c', hc'⟩
        obtain ⟨y, hy, _⟩ := (hf.succ x c').2 ⟨c, hg, hc'⟩
        rw [he] at hy
        simp at hy
    · intro c0 c h0 hr hfin
      rcases h.complete c0 c h0 hr hfin with ⟨d, hd, hg⟩ | ⟨x, hx, c1, hg, hr1⟩
      · exact .inl ⟨d, hsub d hd, hg⟩
      · have hcase : x = s ∨ x ∈ deferred ++ others := by simp at hx ⊢; tauto
        rcases hcase with rfl | hx
        · rcases hr1.cases_head with rfl | ⟨b, hb, hr2⟩
          · have he : sys.succ x = [] := by
              by_contra hne
              exact hfin (hf.ended x hne c1 hg)
            exact .inl ⟨x, by rw [hdead, if_pos he]; simp, hg⟩
          · obtain ⟨y, hy, hyg⟩ := (hf.succ x b).2 ⟨c1, hg, hb⟩
            obtain ⟨z, hz, hzg⟩ := (hcov b).2 ⟨y, by simp [hy], hyg⟩
            exact .inr ⟨z, hz, b, hzg, hr2⟩
        · obtain ⟨z, hz, hzg⟩ := (hcov c1).2 ⟨x, by rw [List.mem_append]; exact .inl hx, hg⟩
          exact .inr ⟨z, hz, c1, hzg, hr1⟩
    · exact step_no_leftover hf s others deferred dead

theorem exploring_run {S C : Type} {sys : Sys S} {γ : S → C → Prop} {cstep : C → C → Prop} (hf : Faithful sys γ cstep) (s0 : S) :
    ∀ n st, Exploring γ cstep s0 st → ∀ finals, run sys n st = some finals →
      ∃ st', st'.active = [] ∧ st'.deadended = finals ∧ Exploring γ cstep s0 st' := by
  intro n
  induction n with
  | zero =>
    rintro ⟨active, deferred, dead⟩ h finals hr
    cases active with
    | nil => simp only [run, Option.some.injEq] at hr; exact ⟨_, rfl, hr, h⟩
    | cons => simp [run] at hr
  | succ n ih =>
    rintro ⟨active, deferred, dead⟩ h finals hr
    cases active with
    | nil => simp only [run, Option.some.injEq] at hr; exact ⟨_, rfl, hr, h⟩
    | cons s t => exact ih _ (exploring_step hf s0 _ h) finals (by simpa [run] using hr)

/-- When the exploration ends, its final states stand for exactly the ended executions that start
in what the start state stands for. -/
theorem C10_exact {S C : Type} {sys : Sys S} {γ : S → C → Prop} {cstep : C → C → Prop} (hf : Faithful sys γ cstep)
    (s0 : S) (n : Nat) (finals : List S) (hrun : run sys n ⟨[s0], [], []⟩ = some finals) (c : C) :
    (∃ f ∈ finals, γ f c) ↔ ∃ c0, γ s0 c0 ∧ Reach cstep c0 c ∧ ¬ ∃ c', cstep c c' := by
  have hinit : Exploring γ cstep s0 ⟨[s0], [], []⟩ := by
    refine ⟨?_, by simp, ?_, by simp⟩
    · intro s hs c hg
      simp only [List.append_nil, List.mem_singleton] at hs
      subst hs
      exact ⟨c, hg, .refl c⟩
    · intro c0 c h0 hr _
      exact .inr ⟨s0, by simp, c0, h0, hr⟩
  obtain ⟨st', hact, rfl, hex⟩ := exploring_run hf s0 n _ hinit finals hrun
  constructor
  · rintro ⟨f, hfm, hg⟩
    obtain ⟨c0, h0, hr⟩ := hex.sound f (by simp [hfm]) c hg
    exact ⟨c0, h0, hr, hex.final f hfm c hg⟩
  · rintro ⟨c0, h0, hr, hfin⟩
    rcases hex.complete c0 c h0 hr hfin with h | ⟨s, hs, _⟩
    · exact h
    · rw [hact, hex.noLeftover hact] at hs
      simp at hs

theorem takeWhile_lowest {S : Type} (pc : S → Nat) (l : List S) (hs : l.Pairwise (fun a b => pc a ≤ pc b)) (x : S) (t : List S) (hl : l = x :: t) :
    (∀ y ∈ l.takeWhile (fun y => pc y == pc x), ∀ z ∈ l, pc y ≤ pc z) ∧ ∀ z ∈ l.dropWhile (fun y => pc y == pc x), pc x < pc z := by
  subst hl
  rw [List.pairwise_cons] at hs
  refine ⟨?_, ?_⟩
  · intro y hy z hz
    have hy' : pc y = pc x := by simpa using List.mem_takeWhile_imp hy
    rcases List.mem_cons.1 hz with rfl | hz
    · omega
    · have := hs.1 z hz; omega
  · rw [List.dropWhile_cons_of_pos (by simp)]
    have hsub : ∀ l' : List S, (∀ z ∈ l', pc x ≤ pc z) → l'.Pairwise (fun a b => pc a ≤ pc b) →
        ∀ z ∈ l'.dropWhile (fun y => pc y == pc x), pc x < pc z := by
      intro l'
      induction l' with
      | nil => simp
      | cons y l' ih =>
        intro h1 h2 z hz
        rw [List.pairwise_cons] at h2
        by_cases hy : pc y = pc x
        · rw [List.dropWhile_cons_of_pos (by simp [hy])] at hz
          exact ih (fun w hw => h1 w (by simp [hw])) h2.2 z hz
        · rw [List.dropWhile_cons_of_neg (by simp [hy])] at hz
          have hy1 := h1 y (by simp)
          rcases List.mem_cons.1 hz with rfl | hz
          · omega
          · have := h2.1 z hz; omega
    exact hsub t hs.1 hs.2

/-- The states picked for merging are exactly those at the lowest program counter of all pending
states, and at least one is picked. -/
theorem C10_lowest_first {S : Type} (sys : Sys S) (pending : List S) (hne : pending ≠ []) :
    let picked := popLowest sys (sortDeferred sys pending).reverse
    (picked.1 ++ picked.2).Perm pending ∧ picked.1 ≠ [] ∧
    (∀ y ∈ picked.1, ∀ z ∈ pending, sys.pc y ≤ sys.pc z) ∧ ∀ y ∈ picked.1, ∀ z ∈ picked.2, sys.pc y < sys.pc z := by
  intro picked
  have hperm : (sortDeferred sys pending).reverse.Perm pending := (List.reverse_perm _).trans (List.perm_insertionSort _ _)
  have hsorted : (sortDeferred sys pending).reverse.Pairwise (fun a b => sys.pc a ≤ sys.pc b) := by
    rw [List.pairwise_reverse]
    have : IsTrans S (fun a b => sys.pc b ≤ sys.pc a) := ⟨fun a b c h1 h2 => le_trans h2 h1⟩
    have : Std.Total (fun a b => sys.pc b ≤ sys.pc a) := ⟨fun a b => le_total _ _⟩
    exact List.pairwise_insertionSort (fun a b => sys.pc b ≤ sys.pc a) pending
  have hlne : (sortDeferred sys pending).reverse ≠ [] := by
    intro h0
    have := hperm.length_eq
    rw [h0] at this
    exact hne (List.length_eq_zero_iff.1 this.symm)
  obtain ⟨x, t, hxt⟩ := List.exists_cons_of_ne_nil hlne
  have hp : picked = ((x :: t).takeWhile (fun y => sys.pc y == sys.pc x), (x :: t).dropWhile (fun y => sys.pc y == sys.pc x)) := by
    show popLowest sys (sortDeferred sys pending).reverse = _
    rw [hxt]; rfl
  rw [hxt] at hperm hsorted
  obtain ⟨h1, h2⟩ := takeWhile_lowest sys.pc (x :: t) hsorted x t rfl
  rw [hp]
  refine ⟨by rw [List.takeWhile_append_dropWhile]; exact hperm, by simp, ?_, ?_⟩
  · intro y hy z hz
    exact h1 y hy z (hperm.symm.subset hz)
  · intro y hy z hz
    have hy' : sys.pc y = sys.pc x := by simpa using List.mem_takeWhile_imp hy
    have := h2 z hz
    omega

/-- A program that branches and joins: state (pc, values of x possible there). From 0, x even goes
to 1 and x odd to 2, both continue to 3 and stop there. Two states at 3 are merged. -/
def sampleSys : Sys (Nat × List Nat) where
  succ s := if s.1 = 0 then [(1, s.2.filter (· % 2 == 0)), (2, s.2.filter (· % 2 == 1))]
    else if s.1 < 3 then [(3, s.2)] else []
  pc s := s.1
  justReturned _ := false
  merge pile := match pile with
    | [a, b] => if a.1 = b.1 then some (a.1, a.2 ++ b.2) else none
    | _ => none
  triage l := triageForMerge (fun s : Nat × List Nat => s.1) (none : Option (Nat × List Nat → Unit)) (fun _ _ => true) l

/-- The concrete program: (pc, x). -/
def sampleStep (c c' : Nat × Nat) : Prop :=
  c'.2 = c.2 ∧ ((c.1 = 0 ∧ c'.1 = 1 ∧ c.2 % 2 = 0) ∨ (c.1 = 0 ∧ c'.1 = 2 ∧ c.2 % 2 = 1) ∨ (0 < c.1 ∧ c.1 < 3 ∧ c'.1 = 3))

example : Faithful sampleSys (fun s (c : Nat × Nat) => c.1 = s.1 ∧ c.2 ∈ s.2) sampleStep := by
  refine ⟨?_, ?_, ?_, fun l => (C11_partition (fun s : Nat × List Nat => s.1) (none : Option (Nat × List Nat → Unit)) (fun _ _ => true) l).1⟩
  · rintro ⟨pc, xs⟩ ⟨pc', x'⟩
    simp only [sampleSys, sampleStep]
    constructor
    · rintro ⟨s', hs, h1, h2⟩
      refine ⟨(pc, x'), ⟨rfl, ?_⟩, rfl, ?_⟩ <;> split at hs <;> (try split at hs) <;> simp_all
      · rcases hs with rfl | rfl <;> simp_all
      · rcases hs with rfl | rfl <;> simp_all
      · omega
    · rintro ⟨⟨a, b⟩, ⟨h1, h2⟩, h3, h4⟩
      simp only at h1 h2 h3 h4
      subst h1 h3
      rcases h4 with ⟨rfl, rfl, h⟩ | ⟨rfl, rfl, h⟩ | ⟨h5, h6, rfl⟩
      · exact ⟨(1, xs.filter (· % 2 == 0)), by simp, rfl, by simp [h, h2]⟩
      · exact ⟨(2, xs.filter (· % 2 == 1)), by simp, rfl, by simp [h, h2]⟩
      · exact ⟨(3, xs), by rw [if_neg (by omega), if_pos h6]; simp, rfl, h2⟩
  · rintro ⟨pc, xs⟩ hne ⟨a, b⟩ ⟨h1, h2⟩
    simp only [sampleSys] at hne
    simp only at h1 h2
    subst h1
    by_cases h0 : a = 0
    · subst h0
      rcases Nat.mod_two_eq_zero_or_one b with h | h
      · exact ⟨(1, b), by simp [sampleStep, h]⟩
      · exact ⟨(2, b), by simp [sampleStep, h]⟩
    · by_cases h3 : a < 3
      · exact ⟨(3, b), by simp [sampleStep]; omega⟩
      · simp [h0, h3] at hne
  · intro pile m hm c
    simp only [sampleSys] at hm
    split at hm
    · rename_i a b
      split at hm
      · rename_i hab
        simp only [Option.some.injEq] at hm
        subst hm
        simp [hab]
        tauto
      · cases hm
    · cases hm

example : (run sampleSys 10 ⟨[(0, [4, 7, 9])], [], []⟩).map List.length = some 1 := by
  decide +kernel

end Verif.Props
