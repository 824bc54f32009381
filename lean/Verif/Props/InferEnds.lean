/- C88: when the loop that looks for invariants ends. -/
import Verif.Props.Infer

set_option autoImplicit false

namespace Verif.Tool.GhostMap

open Classical in
/-- How many of the forms an invariant does not allow yet. -/
noncomputable def missing (forms : List IB) (c : IB) : Nat := forms.countP fun f => decide (¬ Weaker c f)

open Classical in
theorem missing_le (forms : List IB) (c : IB) : missing forms c ≤ forms.length := List.countP_le_length

open Classical in
theorem missing_mono {forms : List IB} {c c' : IB} (h : Weaker c' c) : missing forms c' ≤ missing forms c :=
  List.countP_mono_left fun f _ hf => by
    simp only [decide_eq_true_eq] at hf ⊢
    exact fun hw => hf (h.trans hw)

open Classical in
theorem missing_lt {c c' f : IB} (h : Weaker c' c) (hc : ¬ Weaker c f) (hc' : Weaker c' f) : ∀ {forms : List IB}, f ∈ forms → missing forms c' < missing forms c
  | [], hf => by simp at hf
  | g :: gs, hf => by
    unfold missing
    rw [List.countP_cons, List.countP_cons]
    rcases List.mem_cons.1 hf with rfl | hf
    · have h1 := missing_mono (forms := gs) h
      unfold missing at h1
      simp only [hc, hc', not_true_eq_false, not_false_eq_true, decide_true, decide_false, if_true, Bool.false_eq_true, if_false]
      omega
    · have h1 := missing_lt h hc hc' hf
      unfold missing at h1
      by_cases hg : Weaker c' g
      · simp only [hg, not_true_eq_false, decide_false, Bool.false_eq_true, if_false]
        omega
      · have hg' : ¬ Weaker c g := fun hw => hg (h.trans hw)
        simp only [hg, hg', not_false_eq_true, decide_true, if_true]
        omega

/-- Two invariants that say the same. -/
def SaysSame (a b : IB) : Prop := ∀ M ρ k v p, a.sem M ρ k v p = b.sem M ρ k v p

theorem flattenItems_missing {fuel : Nat} {anc : List Sym} {forms : List IB} {st : State} : ∀ {items : List Item} {conj conj' : IB} {ch ch' : Bool} {st' : State}, conj.still →
    (∀ item ∈ items, ∃ f ∈ forms, SaysSame (widening st.constraints item anc) f) →
    flattenItems fuel anc conj ch st items = some (conj', ch', st') → ch' = ch ∧ conj' = conj ∨ missing forms conj' < missing forms conj
  | [], conj, conj', ch, ch', st', _, _, h => by
    simp only [flattenItems, Option.some.injEq, Prod.mk.injEq] at h
    exact .inl ⟨h.2.1.symm, h.1.symm⟩
  | item :: items, conj, conj', ch, ch', st', hs, hf, h => by
    obtain ⟨b, h1, h2⟩ := evalB_still (get fuel) item (.and item.present (.lit true)) st conj hs
    unfold flattenItems at h
    have ha : applyInv (get fuel) st (freezeB st conj) item (.lit true) = some (b, st) := by unfold applyInv; rw [freezeB_still st conj hs]; exact h1
    rw [ha] at h
    simp only at h
    split at h
    · exact flattenItems_missing hs (fun i hi => hf i (by simp [hi])) h
    · rename_i hd
      right
      obtain ⟨f, hfm, hfs⟩ := hf item (by simp)
      have hlt : missing forms (.or conj (widening st.constraints item anc)) < missing forms conj := by
        refine missing_lt (Weaker.or _ _) (f := f) ?_ ?_ hfm
        · intro hw
          refine hd ?_
          unfold definitely
          simp only [decide_eq_true_eq]
          intro ρ hsat
          rw [den_implies]
          intro _
          rw [h2 noMaps ρ]
          refine hw _ _ _ _ _ ?_
          rw [← hfs]
          exact widening_sound hsat
        · intro M ρ k v p hv
          rw [← hfs] at hv
          simp [IB.sem, hv]
      exact lt_of_le_of_lt (missing_mono (flattenItems_weaker h).1) hlt

theorem flattenStates_missing {fuel : Nat} {anc : List Sym} {forms : List IB} {obj : Nat} : ∀ {sts : List State} {conj conj' : IB} {ch ch' : Bool} {sts' : List State}, conj.still →
    (∀ st ∈ sts, ∀ item ∈ setItems (st.maps obj).layers, ∃ f ∈ forms, SaysSame (widening st.constraints item anc) f) →
    flattenStates fuel anc obj conj ch sts = some (conj', ch', sts') → ch' = ch ∧ conj' = conj ∨ missing forms conj' < missing forms conj
  | [], conj, conj', ch, ch', sts', _, _, h => by
    simp only [flattenStates, Option.some.injEq, Prod.mk.injEq] at h
    exact .inl ⟨h.2.1.symm, h.1.symm⟩
  | st :: sts, conj, conj', ch, ch', sts', hs, hf, h => by
    obtain ⟨c1, ch1, h1, h2, -⟩ := flattenItems_still (fuel := fuel) (anc := anc) (st := st) (setItems (st.maps obj).layers) ch hs
    unfold flattenStates at h
    rw [h1] at h
    simp only at h
    split at h
    · simp at h
    · rename_i c2 ch2 sts2 h3
      simp only [Option.some.injEq, Prod.mk.injEq] at h
      obtain ⟨rfl, rfl, -⟩ := h
      rcases flattenStates_missing h2 (fun s hs' => hf s (by simp [hs'])) h3 with ⟨rfl, rfl⟩ | hlt
      · exact flattenItems_missing hs (hf st (by simp)) h1
      · exact .inr (lt_of_lt_of_le hlt (missing_mono (flattenItems_weaker h1).1))

/-- The same, of several invariants. -/
noncomputable def allMissing (forms conjs : List IB) : Nat := (conjs.map (missing forms)).sum

theorem allMissing_mono {forms : List IB} : ∀ {l l' : List IB}, List.Forall₂ Weaker l' l → allMissing forms l' ≤ allMissing forms l
  | _, _, .nil => Nat.le_refl _
  | _, _, .cons h1 h2 => by
    unfold allMissing
    simp only [List.map_cons, List.sum_cons]
    exact Nat.add_le_add (missing_mono h1) (allMissing_mono h2)

theorem allMissing_le (forms : List IB) : ∀ l : List IB, allMissing forms l ≤ l.length * forms.length
  | [] => by simp [allMissing]
  | c :: cs => by
    have := allMissing_le forms cs
    unfold allMissing at this ⊢
    simp only [List.map_cons, List.sum_cons, List.length_cons, Nat.succ_mul]
    have := missing_le forms c
    omega

theorem flatten_missing {fuel : Nat} {anc : List Sym} {forms : List IB} {obj : Nat} : ∀ {conjs conjs' : List IB} {sts sts' : List State} {ch ch' : Bool}, (∀ c ∈ conjs, c.still) →
    (∀ st ∈ sts, ∀ item ∈ setItems (st.maps obj).layers, ∃ f ∈ forms, SaysSame (widening st.constraints item anc) f) →
    flatten fuel anc obj conjs ch sts = some (conjs', ch', sts') → ch' = ch ∧ conjs' = conjs ∨ allMissing forms conjs' < allMissing forms conjs
  | [], conjs', sts, sts', ch, ch', _, _, h => by
    simp only [flatten, Option.some.injEq, Prod.mk.injEq] at h
    exact .inl ⟨h.2.1.symm, h.1.symm⟩
  | conj :: conjs, conjs', sts, sts', ch, ch', hs, hf, h => by
    obtain ⟨c1, ch1, h1, h2, -⟩ := flattenStates_still (fuel := fuel) (anc := anc) (obj := obj) sts ch (hs conj (by simp))
    unfold flatten at h
    rw [h1] at h
    simp only at h
    split at h
    · simp at h
    · rename_i c2 ch2 sts2 h3
      simp only [Option.some.injEq, Prod.mk.injEq] at h
      obtain ⟨rfl, rfl, -⟩ := h
      have hm1 := missing_mono (forms := forms) (flattenStates_weaker h1).1
      have hm2 := allMissing_mono (forms := forms) (flatten_weaker h3).1
      have e1 : ∀ c cs, allMissing forms (c :: cs) = missing forms c + allMissing forms cs := fun c cs => by simp [allMissing]
      rw [e1, e1]
      rcases flatten_missing (fun c hc => hs c (by simp [hc])) hf h3 with ⟨rfl, rfl⟩ | hlt
      · rcases flattenStates_missing (hs conj (by simp)) hf h1 with ⟨rfl, rfl⟩ | hlt
        · exact .inl ⟨rfl, rfl⟩
        · exact .inr (by omega)
      · exact .inr (by omega)

/-- What can still happen to what is known about the length of a map. -/
def lengthLeft (n : Nat) : Option (List Nat) → Nat
  | none => n + 1
  | some l => l.length

theorem inferLength_left {relevant : List Nat} {anc : State} {sts : List State} {obj : Nat} (p : Option (List Nat)) :
    (inferLength relevant anc sts obj p).1 = false ∧ (inferLength relevant anc sts obj p).2 = p ∨
      lengthLeft relevant.length (inferLength relevant anc sts obj p).2 < lengthLeft relevant.length p := by
  cases p with
  | none =>
    simp only [inferLength]
    cases hg : getLengthInvariants obj relevant sts anc with
    | none => simp
    | some l =>
      right
      unfold getLengthInvariants at hg
      split at hg
      · simp at hg
      · simp only [Option.some.injEq] at hg
        subst hg
        exact Nat.lt_succ_of_le (List.length_filter_le _ _)
  | some l =>
    simp only [inferLength]
    cases ha : l.all fun other => sts.all fun st => definitely st.constraints (lengthInv st obj other) with
    | true =>
      left
      refine ⟨rfl, ?_⟩
      rw [List.filter_eq_self.2]
      exact List.all_eq_true.1 ha
    | false =>
      right
      simp only [lengthLeft]
      refine lt_of_le_of_ne (List.length_filter_le _ _) fun he => ?_
      have := List.length_filter_eq_length_iff.1 he
      rw [List.all_eq_true.2 this] at ha
      simp at ha

/-- What can still happen to what is known about a map. -/
noncomputable def left (forms : List IB) (n : Nat) (invs : List IB) (p : Option (List Nat)) : Nat := allMissing forms invs + lengthLeft n p

theorem inferObj_left {fuel : Nat} {relevant : List Nat} {vars : List Sym} {anc : State} {prev : Nat → Option (List Nat)} {sts : List State} {obj : Nat} {f : Found} {forms : List IB}
    (hs : ∀ c ∈ (anc.maps obj).invs, c.still) (hf : ∀ st ∈ sts, ∀ item ∈ setItems (st.maps obj).layers, ∃ g ∈ forms, SaysSame (widening st.constraints item vars) g)
    (h : inferObj fuel noGuess relevant vars anc prev sts obj = some f) :
    left forms relevant.length f.conjs f.lens ≤ left forms relevant.length (anc.maps obj).invs (prev obj) ∧
      (f.changed = true → left forms relevant.length f.conjs f.lens < left forms relevant.length (anc.maps obj).invs (prev obj)) := by
  obtain ⟨c1, ch1, h1, -⟩ := flatten_still (fuel := fuel) (anc := vars) (obj := obj) (anc.maps obj).invs false sts hs
  unfold inferObj at h
  rw [h1] at h
  simp only [noGuess_none, ite_self, Option.some.injEq] at h
  subst h
  have hm := allMissing_mono (forms := forms) (flatten_weaker h1).1
  have hfl := flatten_missing hs hf h1
  have hl := inferLength_left (relevant := relevant) (anc := anc) (sts := sts) (obj := obj) (prev obj)
  have hl' : lengthLeft relevant.length (inferLength relevant anc sts obj (prev obj)).2 ≤ lengthLeft relevant.length (prev obj) := by
    rcases hl with hl | hl
    · rw [hl.2]
    · exact Nat.le_of_lt hl
  unfold left
  simp only [Bool.or_eq_true]
  refine ⟨by omega, ?_⟩
  rintro (h | h)
  · rcases hfl with hfl | hfl
    · rw [hfl.1] at h; simp at h
    · omega
  · rcases hl with hl | hl
    · rw [hl.1] at h; simp at h
    · omega

theorem sum_le {α : Type} {f g : α → Nat} : ∀ {l : List α}, (∀ a ∈ l, f a ≤ g a) → (l.map f).sum ≤ (l.map g).sum
  | [], _ => by simp
  | a :: l, h => by
    simp only [List.map_cons, List.sum_cons]
    exact Nat.add_le_add (h a (by simp)) (sum_le fun b hb => h b (by simp [hb]))

theorem sum_lt {α : Type} {f g : α → Nat} : ∀ {l : List α}, (∀ a ∈ l, f a ≤ g a) → (∃ a ∈ l, f a < g a) → (l.map f).sum < (l.map g).sum
  | [], _, h => by simp at h
  | a :: l, h1, h2 => by
    simp only [List.map_cons, List.sum_cons]
    have ha := h1 a (by simp)
    have hl : (l.map f).sum ≤ (l.map g).sum := sum_le fun b hb => h1 b (by simp [hb])
    obtain ⟨b, hb, hlt⟩ := h2
    rcases List.mem_cons.1 hb with rfl | hb
    · omega
    · have := sum_lt (fun b hb => h1 b (by simp [hb])) ⟨b, hb, hlt⟩
      omega

/-- What can still happen to what is known about several maps. -/
noncomputable def allLeft (forms : List IB) (changing : List Nat) (A : State) (prev : Nat → Option (List Nat)) : Nat :=
  (changing.map fun o => left forms changing.length (A.maps o).invs (prev o)).sum

/-- Only symbols that exist are used. -/
structure Below (A : State) : Prop where
  maps : ∀ o, MapBelow A.next (A.maps o)
  within : ∀ c ∈ A.constraints, c.within A.next

theorem inferObjs_some {fuel : Nat} {relevant : List Nat} {vars : List Sym} {anc : State} {prev : Nat → Option (List Nat)} {sts : List State} (hs : ∀ o, ∀ c ∈ (anc.maps o).invs, c.still) :
    ∀ objs : List Nat, ∃ fs, inferObjs fuel noGuess relevant vars anc prev sts objs = some fs
  | [] => ⟨[], rfl⟩
  | o :: objs => by
    obtain ⟨fs, hfs⟩ := inferObjs_some (fuel := fuel) (relevant := relevant) (vars := vars) (prev := prev) (sts := sts) hs objs
    obtain ⟨c1, ch1, h1, -⟩ := flatten_still (fuel := fuel) (anc := vars) (obj := o) (anc.maps o).invs false sts (hs o)
    unfold inferObjs inferObj
    rw [h1]
    simp only [noGuess_none, ite_self, hfs]
    exact ⟨_, rfl⟩

theorem relax_below {fuel top : Nat} {fs : List (Nat × Found)} {A A1 : State} (hA : Below A) (hp : Relaxable A (max A.next top) fs) (hr : relax fuel top fs A = some A1) : Below A1 := by
  obtain ⟨A2, names, j1, j2, j3, j4, j5, -⟩ := relax_spec fuel top fs A hp (fun _ => 0) (fun _ => 0) (fun _ => false) (fun _ => 0) env0
  rw [hr] at j1
  simp only [Option.some.injEq] at j1
  subst j1
  refine ⟨?_, j5⟩
  intro o
  by_cases ho : o ∈ fs.map Prod.fst
  · obtain ⟨f, hf, rfl⟩ := List.mem_map.1 ho
    obtain ⟨i, i1, i2, i3, i4, i5⟩ := j4 f hf
    rw [i3]
    refine ⟨by simp, ?_, ⟨show i < _ by omega, show i + 1 < _ by omega, show i < _ by omega⟩, by simp, ?_⟩
    · cases hl : f.2.lens with
      | none => exact E.within_mono ((Nat.le_max_left _ _).trans j2) _ (length_within (hA.maps f.1))
      | some l => exact i2
    · intro p hp'
      obtain ⟨q, hq, rfl⟩ := List.mem_map.1 hp'
      have hq2 : q.2 ∈ (names f.1).map Prod.snd := List.mem_map.2 ⟨q, hq, rfl⟩
      rw [i4] at hq2
      split at hq2
      · simp at hq2
      · exact ⟨i5 q hq, IB.pure_mono j2 _ (hp.conjs f hf _ hq2)⟩
  · rw [j3 o ho]
    exact (hA.maps o).mono ((Nat.le_max_left _ _).trans j2)

/-- One iteration succeeds: it says that nothing changed, or it gives a state about which less can still happen. -/
theorem iteration_left {fuel : Nat} {objs changing : List Nat} (hn : objs.Nodup) {forms : List IB} {A : State} {R : List State} {prev : Nat → Option (List Nat)} (hA : Below A)
    (hw : ∀ r ∈ R, ∀ c ∈ r.constraints, c.within r.next) (hrel : R ≠ [] → relevantObjs objs A R = changing)
    (hforms : ∀ r ∈ R, ∀ o ∈ changing, ∀ item ∈ setItems (r.maps o).layers, ∃ f ∈ forms, SaysSame (widening r.constraints item (getVariables objs [A])) f) :
    infer fuel noGuess objs [A] R prev = some .fixpoint ∨ ∃ A' prev', infer fuel noGuess objs [A] R prev = some (.next [A'] prev') ∧ Below A' ∧
      allLeft forms changing A' prev' < allLeft forms changing A prev := by
  cases R with
  | nil => exact .inl rfl
  | cons r R =>
    have hrel := hrel (by simp)
    have hst : ∀ o, ∀ c ∈ (A.maps o).invs, c.still := fun o c hc => IB.still_of_pure _ ((hA.maps o).invs c hc)
    obtain ⟨fs, hfs⟩ := inferObjs_some (fuel := fuel) (relevant := changing) (vars := getVariables objs [A]) (prev := prev) (sts := r :: R) hst changing
    obtain ⟨hfst, hfm⟩ := inferObjs_mem hfs
    have hnd : changing.Nodup := by rw [← hrel]; exact hn.filter _
    have hwR : ∀ st ∈ r :: R, ∀ c ∈ st.constraints, c.within (max A.next (topOf (r :: R))) := fun st hst c hc =>
      B.within_mono ((le_topOf hst).trans (Nat.le_max_right _ _)) _ (hw st hst c hc)
    have hspec : ∀ f ∈ fs, f.2.preds = [] ∧ (∀ c ∈ f.2.conjs, c.pure (max A.next (topOf (r :: R)))) ∧ List.Forall₂ Weaker f.2.conjs (A.maps f.1).invs ∧
        f.2.lens = (inferLength changing A (r :: R) f.1 (prev f.1)).2 := fun f hf =>
      inferObj_spec hwR (fun c hc => IB.pure_mono (Nat.le_max_left _ _) _ ((hA.maps f.1).invs c hc)) (hfm f hf)
    have hplain : Relaxable A (max A.next (topOf (r :: R))) fs :=
      ⟨by rw [hfst]; exact hnd, fun f hf => (hspec f hf).1, fun f hf => (hspec f hf).2.1, hA.maps, hA.within⟩
    simp only [infer, hrel, hfs]
    by_cases hc : (fs.any fun f => f.2.changed) = true
    · right
      obtain ⟨A1, names, j1, j2, j3, j4, j5, -⟩ := relax_spec fuel (topOf (r :: R)) fs A hplain (fun _ => 0) (fun _ => 0) (fun _ => false) (fun _ => 0) env0
      refine ⟨A1, lensOf fs, by rw [if_pos hc]; simp only [allSome, j1], relax_below hA hplain j1, ?_⟩
      · have hlt : ∀ f ∈ fs, left forms changing.length (A1.maps f.1).invs (lensOf fs f.1) ≤ left forms changing.length f.2.conjs f.2.lens := by
          intro f hf
          obtain ⟨i, -, -, i3, i4, -⟩ := j4 f hf
          rw [lensOf_mem hplain.nodup hf, i3]
          unfold left
          refine Nat.add_le_add_right ?_ _
          have hnm : ∀ l : List (Nat × IB), allMissing forms (l.map named) ≤ allMissing forms (l.map Prod.snd) := by
            intro l
            refine allMissing_mono ?_
            induction l with
            | nil => exact .nil
            | cons q l ih => exact .cons (fun M ρ k v p h => by simp [named, iimplies, IB.sem, h]) ih
          refine (hnm _).trans ?_
          rw [i4]
          split
          · simp [allMissing]
          · exact Nat.le_refl _
        have hob : ∀ f ∈ fs, _ := fun f hf => inferObj_left (forms := forms) (hst f.1)
          (fun st hst' => hforms st hst' f.1 (by rw [← hfst]; exact List.mem_map.2 ⟨f, hf, rfl⟩)) (hfm f hf)
        unfold allLeft
        rw [show changing = fs.map Prod.fst from hfst.symm, List.map_map, List.map_map]
        rw [show (fs.map Prod.fst).length = changing.length from by rw [hfst]]
        refine sum_lt ?_ ?_
        · intro f hf
          exact (hlt f hf).trans (hob f hf).1
        · obtain ⟨f, hf, hch⟩ := List.any_eq_true.1 hc
          exact ⟨f, hf, lt_of_le_of_lt (hlt f hf) ((hob f hf).2 hch)⟩
    · left
      rw [if_neg hc]

end Verif.Tool.GhostMap

namespace Verif.Props

open Verif.Tool.GhostMap

/-- The states from which the iterations of the loop start, and what is then known about lengths. -/
inductive Reached (fuel : Nat) (objs : List Nat) (explore : State → Option (List State)) (A0 : State) : State → (Nat → Option (List Nat)) → Prop where
  | start : Reached fuel objs explore A0 A0 fun _ => none
  | next {A A' : State} {R : List State} {prev prev' : Nat → Option (List Nat)} : Reached fuel objs explore A0 A prev → explore A = some R →
      infer fuel noGuess objs [A] R prev = some (.next [A'] prev') → Reached fuel objs explore A0 A' prev'

theorem loop_left {fuel : Nat} {objs changing : List Nat} (hn : objs.Nodup) {forms : List IB} {explore : State → Option (List State)} {A0 : State}
    (he : ∀ A prev, Reached fuel objs explore A0 A prev → ∃ R, explore A = some R ∧ (∀ r ∈ R, ∀ c ∈ r.constraints, c.within r.next) ∧ (R ≠ [] → relevantObjs objs A R = changing) ∧
      ∀ r ∈ R, ∀ o ∈ changing, ∀ item ∈ setItems (r.maps o).layers, ∃ f ∈ forms, SaysSame (widening r.constraints item (getVariables objs [A])) f) :
    ∀ (n : Nat) (A : State) (prev : Nat → Option (List Nat)), Reached fuel objs explore A0 A prev → Below A → allLeft forms changing A prev ≤ n →
      ∃ res, fixpointLoop fuel noGuess objs explore (n + 1) [A] prev = some res
  | n, A, prev, hr, hb, hle => by
    obtain ⟨R, e1, e2, e3, e4⟩ := he A prev hr
    unfold fixpointLoop
    have hx : exploreAll explore [A] = some R := by simp [exploreAll, allSome, e1]
    rw [hx]
    simp only
    rcases iteration_left (fuel := fuel) hn (prev := prev) hb e2 e3 e4 with h | ⟨A', prev', h1, h2, h3⟩
    · rw [h]; exact ⟨_, rfl⟩
    · rw [h1]
      simp only
      cases n with
      | zero => omega
      | succ n => exact loop_left hn he n A' prev' (.next hr e1 h1) h2 (by omega)

/-- C88, an end, when nothing is guessed and invariants read no map: suppose that whatever state an iteration starts from, the same maps change, and what inference adds to an invariant says the
same as one of finitely many forms. Then the loop ends, after at most one iteration more than there are invariants times forms and maps times maps plus maps. What is missing: that there are
finitely many forms, which `C88_never_ends` shows to be needed; and guesses. -/
theorem C88_ends_partial {fuel : Nat} {objs changing : List Nat} (hn : objs.Nodup) (forms : List IB) {explore : State → Option (List State)} {A0 : State}
    (hm : ∀ o, MapBelow A0.next (A0.maps o)) (hc : ∀ c ∈ A0.constraints, c.within A0.next)
    (he : ∀ A prev, Reached fuel objs explore A0 A prev → ∃ R, explore A = some R ∧ (∀ r ∈ R, ∀ c ∈ r.constraints, c.within r.next) ∧ (R ≠ [] → relevantObjs objs A R = changing) ∧
      ∀ r ∈ R, ∀ o ∈ changing, ∀ item ∈ setItems (r.maps o).layers, ∃ f ∈ forms, ∀ M ρ k v p,
        (widening r.constraints item (getVariables objs [A])).sem M ρ k v p = f.sem M ρ k v p) :
    ∃ ancs R lens, fixpointLoop fuel noGuess objs explore ((changing.map fun o => (A0.maps o).invs.length * forms.length + changing.length + 1).sum + 1) [A0] (fun _ => none) = some (ancs, R, lens) := by
  have hle : allLeft forms changing A0 (fun _ => none) ≤ (changing.map fun o => (A0.maps o).invs.length * forms.length + changing.length + 1).sum := by
    unfold allLeft
    refine sum_le fun o _ => ?_
    have := allMissing_le forms (A0.maps o).invs
    show allMissing forms (A0.maps o).invs + (changing.length + 1) ≤ _
    omega
  obtain ⟨⟨ancs, R, lens⟩, h⟩ := loop_left hn (forms := forms) (changing := changing) he _ A0 _ .start ⟨hm, hc⟩ hle
  exact ⟨ancs, R, lens, h⟩

theorem constantValue_const {cs : List B} {ρ : Env} (h : sat cs ρ) (c : Nat) : constantValue cs (.const c) = some c := by
  unfold constantValue
  have hx : ∃ d, (∃ ρ, sat cs ρ) ∧ ∀ ρ, sat cs ρ → (E.const c).den ρ = d := ⟨c, ⟨ρ, h⟩, fun _ _ => rfl⟩
  rw [dif_pos hx]
  exact congrArg some (hx.choose_spec.2 ρ h).symm

open InferExample in
/-- The hypotheses of `C88_ends_partial` can be met: one map, empty at first; every packet sets key 0 to 1. One form is enough. -/
example : (∀ o, MapBelow start.next (start.maps o)) ∧ (∀ c ∈ start.constraints, c.within start.next) ∧
    ∀ A prev, Reached 1 [0] explore start A prev → ∃ R, explore A = some R ∧ (∀ r ∈ R, ∀ c ∈ r.constraints, c.within r.next) ∧ (R ≠ [] → relevantObjs [0] A R = [0]) ∧
      ∀ r ∈ R, ∀ o ∈ [0], ∀ item ∈ setItems (r.maps o).layers, ∃ f ∈ [iandAll [ieq .key (.lift (.const 0)), ieq .value (.lift (.const 1))]], ∀ M ρ k v p,
        (widening r.constraints item (getVariables [0] [A])).sem M ρ k v p = f.sem M ρ k v p := by
  have hd := start_describes world env rfl (fun _ _ => rfl) (fun _ => rfl)
  refine ⟨fun o => (hd.maps o).within, hd.within, ?_⟩
  obtain ⟨f, h1, h2⟩ := stops
  have hinv : LoopInv 0 env [0] (fun _ => False) start (start.maps' world env) start (fun _ => none) :=
    ⟨Nat.zero_le _, ⟨world, env, Agree.refl _ _, hd, rfl⟩, by simpa using start_blank, by simp [start, Vacuous, IB.sem], by simp, fun _ _ _ => rfl⟩
  have hex : explore start = some [after start] := by simp [explore]
  obtain ⟨A1, fs, e1, e2, -, -, -, -, hinv1⟩ := hinv.iterate (by simp) (explore_suitable start _ hex ⟨world, env, Agree.refl _ _, hd⟩) h1
  simp only [List.cons.injEq, and_true] at e1
  subst e1
  have hfix : infer 1 noGuess [0] [second] [after second] (lensOf [(0, f)]) = some .fixpoint := by
    have hex2 : exploreAll explore [second] = some [after second] := by simp [exploreAll, allSome, explore]
    unfold fixpointLoop at h2
    rw [hex2] at h2
    simp only at h2
    split at h2
    · simp at h2
    · rename_i hi; exact hi
    · simp [fixpointLoop] at h2
  have key : ∀ A prev, Reached 1 [0] explore start A prev → A = start ∧ prev = (fun _ => none) ∨ A = second ∧ prev = lensOf [(0, f)] := by
    intro A prev hr
    induction hr with
    | start => exact .inl ⟨rfl, rfl⟩
    | next _ he hi ih =>
      rcases ih with ⟨rfl, rfl⟩ | ⟨rfl, rfl⟩
      · rw [hex] at he
        simp only [Option.some.injEq] at he
        subst he
        rw [h1] at hi
        simp only [Option.some.injEq, Inferred.next.injEq, List.cons.injEq, and_true] at hi
        exact .inr ⟨hi.1.symm, hi.2.symm⟩
      · have : explore second = some [after second] := by simp [explore]
        rw [this] at he
        simp only [Option.some.injEq] at he
        subst he
        rw [hfix] at hi
        simp at hi
  have main : ∀ A W ρ, (A.maps 0).blank → Describes A W ρ → explore A = some [after A] → ∃ R, explore A = some R ∧ (∀ r ∈ R, ∀ c ∈ r.constraints, c.within r.next) ∧
      (R ≠ [] → relevantObjs [0] A R = [0]) ∧
      ∀ r ∈ R, ∀ o ∈ [0], ∀ item ∈ setItems (r.maps o).layers, ∃ f ∈ [iandAll [ieq .key (.lift (.const 0)), ieq .value (.lift (.const 1))]], ∀ M ρ k v p,
        (widening r.constraints item (getVariables [0] [A])).sem M ρ k v p = f.sem M ρ k v p := by
    intro A W ρ hb hd he
    have hsu := explore_suitable A _ he ⟨W, ρ, fun i hi => absurd hi (Nat.not_lt_zero _), hd⟩
    refine ⟨_, he, hsu.explores.within, hsu.relevant, ?_⟩
    intro r hr o ho it hit
    simp only [List.mem_singleton] at hr ho
    subst hr ho
    rw [after_items A hb, List.mem_singleton] at hit
    subst hit
    refine ⟨_, List.mem_singleton.2 rfl, fun M ρ' k v p => ?_⟩
    have hs : sat (after A).constraints ρ := hd.sat
    unfold widening findConstraints
    simp only [item]
    rw [constantValue_const hs, constantValue_const hs]
    rfl
  intro A prev hr
  rcases key A prev hr with ⟨rfl, -⟩ | ⟨rfl, -⟩
  · exact main start world env start_blank hd hex
  · obtain ⟨W, ρ, -, hd2, -⟩ := hinv1.start
    exact main second W ρ second_blank hd2 (by simp [explore])

end Verif.Props
