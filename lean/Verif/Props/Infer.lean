/- C27, C29: what inference ends with is true of every history. -/
import Verif.Props.InferRelax
import Mathlib.Logic.Relation

set_option autoImplicit false

namespace Verif.Tool.GhostMap

theorem setItems_eq : ∀ ls : List Layer, setItems ls = items [] ls
  | [] => rfl
  | l :: ls => by simp only [setItems, items, setItems_eq ls]

mutual
theorem E.repl_pure {n : Nat} {x : E} {r : IE} (h : r.pure n) : ∀ e : E, e.within n → (E.repl x r e).pure n
  | .const _, _ => by unfold E.repl; split; exacts [h, trivial]
  | .var _, hw => by unfold E.repl; split; exacts [h, hw]
  | .op1 _ a, hw => by unfold E.repl; split; exacts [h, E.repl_pure h a hw]
  | .op2 _ a b, hw => by unfold E.repl; split; exacts [h, ⟨E.repl_pure h a hw.1, E.repl_pure h b hw.2⟩]
  | .ite c t e, hw => by unfold E.repl; split; exacts [h, ⟨B.repl_pure h c hw.1, E.repl_pure h t hw.2.1, E.repl_pure h e hw.2.2⟩]
theorem B.repl_pure {n : Nat} {x : E} {r : IE} (h : r.pure n) : ∀ b : B, b.within n → (B.repl x r b).pure n
  | .lit _, _ => trivial
  | .var _, hw => hw
  | .not a, hw => B.repl_pure h a hw
  | .and a b, hw => ⟨B.repl_pure h a hw.1, B.repl_pure h b hw.2⟩
  | .or a b, hw => ⟨B.repl_pure h a hw.1, B.repl_pure h b hw.2⟩
  | .iff a b, hw => ⟨B.repl_pure h a hw.1, B.repl_pure h b hw.2⟩
  | .ite c t e, hw => ⟨⟨B.repl_pure h c hw.1, B.repl_pure h t hw.2.1⟩, B.repl_pure h c hw.1, B.repl_pure h e hw.2.2⟩
  | .rel _ a b, hw => ⟨E.repl_pure h a hw.1, E.repl_pure h b hw.2⟩
end

theorem findConstraints_pure {n : Nat} {cs : List B} {expr : E} {slot : IE} {anc : List Sym} (h : slot.pure n) (hw : ∀ c ∈ cs, c.within n) :
    ∀ c ∈ findConstraints cs expr slot anc, c.pure n := by
  intro c hc
  unfold findConstraints at hc
  split at hc
  · simp only [List.mem_singleton] at hc; subst hc; exact ⟨h, trivial⟩
  · rw [List.mem_append] at hc
    rcases hc with hc | hc
    · simp only [List.mem_map, List.mem_filter] at hc
      obtain ⟨b, ⟨hb, -⟩, rfl⟩ := hc
      exact B.repl_pure h b (hw b hb)
    · split at hc
      · simp at hc
      · simp only [List.mem_singleton] at hc; subst hc; exact ⟨h, trivial⟩

theorem iandAll_pure {n : Nat} : ∀ {l : List IB}, (∀ c ∈ l, c.pure n) → (iandAll l).pure n
  | [], _ => trivial
  | c :: _, h => ⟨h c (by simp), iandAll_pure fun d hd => h d (by simp [hd])⟩

theorem widening_pure {n : Nat} {cs : List B} {item : Item} {anc : List Sym} (hw : ∀ c ∈ cs, c.within n) : (widening cs item anc).pure n := by
  refine iandAll_pure fun c hc => ?_
  rw [List.mem_append] at hc
  rcases hc with hc | hc
  · exact findConstraints_pure (slot := .key) trivial hw c hc
  · exact findConstraints_pure (slot := .value) trivial hw c hc

theorem flattenItems_pure {n fuel : Nat} {anc : List Sym} {st : State} (hw : ∀ c ∈ st.constraints, c.within n) : ∀ {items : List Item} {conj conj' : IB} {ch ch' : Bool} {st' : State},
    conj.pure n → flattenItems fuel anc conj ch st items = some (conj', ch', st') → conj'.pure n ∧ st' = st
  | [], conj, conj', ch, ch', st', hp, h => by
    simp only [flattenItems, Option.some.injEq, Prod.mk.injEq] at h
    obtain ⟨rfl, -, rfl⟩ := h
    exact ⟨hp, rfl⟩
  | item :: items, conj, conj', ch, ch', st', hp, h => by
    have hs := IB.still_of_pure _ hp
    obtain ⟨b, h1, -⟩ := evalB_still (get fuel) item (.and item.present (.lit true)) st conj hs
    have ha : applyInv (get fuel) st (freezeB st conj) item (.lit true) = some (b, st) := by unfold applyInv; rw [freezeB_still st conj hs]; exact h1
    unfold flattenItems at h
    rw [ha] at h
    simp only at h
    split at h
    · exact flattenItems_pure hw hp h
    · exact flattenItems_pure hw (conj := .or conj (widening st.constraints item anc)) ⟨hp, widening_pure hw⟩ h

theorem flattenStates_pure {n fuel : Nat} {anc : List Sym} {obj : Nat} : ∀ {sts : List State} {conj conj' : IB} {ch ch' : Bool} {sts' : List State},
    (∀ st ∈ sts, ∀ c ∈ st.constraints, c.within n) → conj.pure n → flattenStates fuel anc obj conj ch sts = some (conj', ch', sts') → conj'.pure n ∧ sts' = sts
  | [], conj, conj', ch, ch', sts', _, hp, h => by
    simp only [flattenStates, Option.some.injEq, Prod.mk.injEq] at h
    obtain ⟨rfl, -, rfl⟩ := h
    exact ⟨hp, rfl⟩
  | st :: sts, conj, conj', ch, ch', sts', hw, hp, h => by
    unfold flattenStates at h
    split at h
    · simp at h
    · rename_i c1 ch1 st1 h1
      obtain ⟨g1, rfl⟩ := flattenItems_pure (hw st (by simp)) hp h1
      split at h
      · simp at h
      · rename_i c2 ch2 sts2 h2
        simp only [Option.some.injEq, Prod.mk.injEq] at h
        obtain ⟨rfl, -, rfl⟩ := h
        obtain ⟨g2, rfl⟩ := flattenStates_pure (fun s hs => hw s (by simp [hs])) g1 h2
        exact ⟨g2, rfl⟩

theorem flatten_pure {n fuel : Nat} {anc : List Sym} {obj : Nat} : ∀ {conjs conjs' : List IB} {sts sts' : List State} {ch ch' : Bool},
    (∀ st ∈ sts, ∀ c ∈ st.constraints, c.within n) → (∀ c ∈ conjs, c.pure n) → flatten fuel anc obj conjs ch sts = some (conjs', ch', sts') →
      (∀ c ∈ conjs', c.pure n) ∧ sts' = sts
  | [], conjs', sts, sts', ch, ch', _, hp, h => by
    simp only [flatten, Option.some.injEq, Prod.mk.injEq] at h
    obtain ⟨rfl, -, rfl⟩ := h
    exact ⟨hp, rfl⟩
  | conj :: conjs, conjs', sts, sts', ch, ch', hw, hp, h => by
    unfold flatten at h
    split at h
    · simp at h
    · rename_i c1 ch1 sts1 h1
      obtain ⟨g1, rfl⟩ := flattenStates_pure hw (hp conj (by simp)) h1
      split at h
      · simp at h
      · rename_i c2 ch2 sts2 h2
        simp only [Option.some.injEq, Prod.mk.injEq] at h
        obtain ⟨rfl, -, rfl⟩ := h
        obtain ⟨g2, rfl⟩ := flatten_pure hw (fun c hc => hp c (by simp [hc])) h2
        refine ⟨?_, rfl⟩
        intro c hc
        rcases List.mem_cons.1 hc with rfl | hc
        · exact g1
        · exact g2 c hc

theorem topOf_le {n : Nat} : ∀ {sts : List State} (m : Nat), m ≤ n → (∀ st ∈ sts, st.next ≤ n) → sts.foldl (fun n st => max n st.next) m ≤ n
  | [], m, h, _ => h
  | st :: sts, m, h, hs => topOf_le (sts := sts) (max m st.next) (max_le h (hs st (by simp))) fun s hs' => hs s (by simp [hs'])

theorem le_fold : ∀ (sts : List State) (m : Nat), m ≤ sts.foldl (fun n st => max n st.next) m ∧ ∀ st ∈ sts, st.next ≤ sts.foldl (fun n st => max n st.next) m
  | [], m => ⟨Nat.le_refl _, by simp⟩
  | st :: sts, m => by
    obtain ⟨h1, h2⟩ := le_fold sts (max m st.next)
    refine ⟨(Nat.le_max_left _ _).trans h1, ?_⟩
    intro s hs
    rcases List.mem_cons.1 hs with rfl | hs
    · exact (Nat.le_max_right _ _).trans h1
    · exact h2 s hs

theorem le_topOf {sts : List State} {st : State} (h : st ∈ sts) : st.next ≤ topOf sts := (le_fold sts 0).2 st h

theorem inferObjs_mem {fuel : Nat} {guess : Guess} {relevant : List Nat} {vars : List Sym} {anc : State} {prev : Nat → Option (List Nat)} {sts : List State} :
    ∀ {objs : List Nat} {fs : List (Nat × Found)}, inferObjs fuel guess relevant vars anc prev sts objs = some fs →
      fs.map Prod.fst = objs ∧ ∀ f ∈ fs, inferObj fuel guess relevant vars anc prev sts f.1 = some f.2
  | [], fs, h => by
    simp only [inferObjs, Option.some.injEq] at h
    subst h
    simp
  | obj :: objs, fs, h => by
    unfold inferObjs at h
    split at h
    · simp at h
    · rename_i f hf
      split at h
      · simp at h
      · rename_i fs' hfs
        simp only [Option.some.injEq] at h
        subst h
        obtain ⟨h1, h2⟩ := inferObjs_mem hfs
        refine ⟨by simp [h1], ?_⟩
        intro g hg
        rcases List.mem_cons.1 hg with rfl | hg
        · exact hf
        · exact h2 g hg

/-- No relations between maps are guessed. -/
def noGuess : Guess := fun _ _ _ => []

theorem noGuess_none {fuel : Nat} {obj : Nat} {relevant : List Nat} {states : List State} {anc : State} : getItemsInvariants fuel noGuess obj relevant states anc = some [] := rfl

/-- What is found about a map whose invariants read no map, when nothing is guessed. -/
theorem inferObj_spec {n fuel : Nat} {relevant : List Nat} {vars : List Sym} {anc : State} {prev : Nat → Option (List Nat)} {sts : List State} {obj : Nat} {f : Found}
    (hw : ∀ st ∈ sts, ∀ c ∈ st.constraints, c.within n) (hp : ∀ c ∈ (anc.maps obj).invs, c.pure n) (h : inferObj fuel noGuess relevant vars anc prev sts obj = some f) :
    f.preds = [] ∧ (∀ c ∈ f.conjs, c.pure n) ∧ List.Forall₂ Weaker f.conjs (anc.maps obj).invs ∧ f.lens = (inferLength relevant anc sts obj (prev obj)).2 := by
  unfold inferObj at h
  split at h
  · simp at h
  · rename_i conjs ch sts' hfl
    obtain ⟨g1, rfl⟩ := flatten_pure hw hp hfl
    rw [noGuess_none, ite_self] at h
    simp only [Option.some.injEq] at h
    subst h
    exact ⟨rfl, g1, (flatten_weaker hfl).1, rfl⟩

theorem forall₂_mem {α : Type} {R : α → α → Prop} : ∀ {l l' : List α}, List.Forall₂ R l l' → ∀ a ∈ l, ∃ b ∈ l', R a b
  | _, _, .nil, a, h => by simp at h
  | _, _, .cons (a := x) (b := y) h1 h2, a, h => by
    rcases List.mem_cons.1 h with rfl | h
    · exact ⟨y, by simp, h1⟩
    · obtain ⟨b, hb, hr⟩ := forall₂_mem h2 a h
      exact ⟨b, by simp [hb], hr⟩

theorem lensOf_mem {fs : List (Nat × Found)} (hn : (fs.map Prod.fst).Nodup) {f : Nat × Found} (hf : f ∈ fs) : lensOf fs f.1 = f.2.lens := by
  unfold lensOf
  have : fs.find? (fun g => g.1 == f.1) = some f := by
    induction fs with
    | nil => simp at hf
    | cons g fs ih =>
      simp only [List.map_cons, List.nodup_cons] at hn
      rcases List.mem_cons.1 hf with rfl | hf
      · simp
      · have hne : g.1 ≠ f.1 := fun he => hn.1 (List.mem_map.2 ⟨f, hf, he.symm⟩)
        rw [List.find?_cons_of_neg (by simpa using hne)]
        exact ih hn.2 hf
  rw [this]

theorem infer_spec {fuel : Nat} {guess : Guess} {objs : List Nat} {A : State} {R : List State} {prev : Nat → Option (List Nat)} {res : Inferred}
    (h : infer fuel guess objs [A] R prev = some res) (hR : R ≠ []) : ∃ fs, inferObjs fuel guess (relevantObjs objs A R) (getVariables objs [A]) A prev R (relevantObjs objs A R) = some fs ∧
      (res = .fixpoint ∧ (fs.any fun f => f.2.changed) = false ∨ ∃ A', relax fuel (topOf R) fs A = some A' ∧ res = .next [A'] (lensOf fs)) := by
  cases R with
  | nil => exact absurd rfl hR
  | cons r R =>
    simp only [infer] at h
    split at h
    · simp at h
    · rename_i fs hfs
      refine ⟨fs, hfs, ?_⟩
      split at h
      · split at h
        · simp at h
        · rename_i new hnew
          simp only [allSome] at hnew
          split at hnew
          · simp at hnew
          · rename_i A' hA'
            simp only [Option.some.injEq] at hnew h
            subst hnew
            exact .inr ⟨A', hA', h.symm⟩
      · rename_i hc
        simp only [Option.some.injEq] at h
        exact .inl ⟨h.symm, by simpa using hc⟩

/-- An invariant says nothing about absent items. -/
def Vacuous (p : IB) : Prop := ∀ M ρ k v, p.sem M ρ k v false = true

/-- Once nothing changes, whatever is reached from what the state describes is described by it too. -/
theorem fixpoint_step {fuel top : Nat} {fs : List (Nat × Found)} {A' A : State} (hp : Relaxable A' (max A'.next top) fs) (hA : relax fuel top fs A' = some A)
    {guess : Guess} {objs : List Nat} {R : List State} (hi : infer fuel guess objs [A] R (lensOf fs) = some .fixpoint) (hrel : relevantObjs objs A R = fs.map Prod.fst)
    (habs : ∀ f ∈ fs, (∀ p ∈ f.2.conjs, Vacuous p) ∨ ∀ r ∈ R, ∀ i ∈ setItems (r.maps f.1).layers, ∀ ρ, sat r.constraints ρ → i.present.den ρ = true)
    {r : State} (hr : r ∈ R) (hlay : ∀ o, o ∉ fs.map Prod.fst → SameLayers (r.maps o).layers (A.maps o).layers)
    {W : Nat → Contents} {ρ ρ' : Env} (hd : Describes A W ρ) (ha : Agree A.next ρ ρ') (hd' : Describes r W ρ') :
    ∃ W1 ρ1, Agree (max A'.next top) ρ ρ1 ∧ Describes A W1 ρ1 ∧ A.maps' W1 ρ1 = r.maps' W ρ' := by
  have hF := fits_of_relax hp hA hd
  obtain ⟨A2, names, h1, h2, h3, h4, h5, h6, -⟩ := relax_spec fuel top fs A' hp (fun _ => 0) (fun _ => 0) (fun _ => false) (fun _ => 0) ρ
  rw [hA] at h1
  simp only [Option.some.injEq] at h1
  subst h1
  have hsat := (h6 ρ).1 hd.sat
  have hle : A'.next ≤ max A'.next top := Nat.le_max_left _ _
  have hpureA : ∀ o, ∀ c ∈ (A.maps o).invs, c.pure A.next := fun o => (hd.maps o).within.invs
  have hR : R ≠ [] := List.ne_nil_of_mem hr
  have hfix : ∀ f ∈ fs, (∀ c ∈ (A.maps f.1).invs, ∀ st ∈ R, ∀ item ∈ setItems (st.maps f.1).layers, Complies st.constraints item c) ∧ LengthKept (lensOf fs) A R f.1 := by
    intro f hf
    obtain ⟨fs', g1, g2⟩ := infer_spec hi hR
    rcases g2 with ⟨-, g2⟩ | ⟨A', -, g2⟩
    · have := inferObjs_fixpoint.1 ⟨fs', g1, g2⟩ f.1 (by rw [hrel]; exact List.mem_map.2 ⟨f, hf, rfl⟩)
      exact (inferObj_unchanged (fun c hc => IB.still_of_pure _ (hpureA f.1 c hc))).1 this
    · simp at g2
  let W1 : Nat → Contents := fun o => if o ∈ fs.map Prod.fst then content ρ' (W o) (r.maps o).layers else W o
  have hW1 : ∀ f ∈ fs, W1 f.1 = content ρ' (W f.1) (r.maps f.1).layers := fun f hf => if_pos (List.mem_map.2 ⟨f, hf, rfl⟩)
  have hW1' : ∀ o, o ∉ fs.map Prod.fst → W1 o = W o := fun o ho => if_neg ho
  have hcur : ∀ o, content ρ' (W o) (r.maps o).layers = contentNow A' fs W1 ρ o := by
    intro o
    unfold contentNow
    split
    · rename_i ho
      obtain ⟨f, hf, rfl⟩ := List.mem_map.1 ho
      exact (hW1 f hf).symm
    · rename_i ho
      have hs := hlay o ho
      rw [h3 o ho] at hs
      rw [hs.content, hW1' o ho]
      exact (content_congr (fun i hi => ha i (by omega)) _ fun l hl => ((hp.maps o).layers l hl).2).symm
  have hcount : ∀ o, (r.length o).den ρ' = Contents.count (contentNow A' fs W1 ρ o) := by
    intro o
    have hl := (hd'.maps o).length 0
    rw [List.drop_zero] at hl
    rw [show r.length o = lengthOf (r.maps o) (r.maps o).layers from rfl, hl.count, hcur]
  have hF1 : Fits A' fs W1 ρ := by
    refine ⟨hF.sat, ?_, ?_, ?_, ?_⟩
    · intro o ho
      rw [hW1' o ho]
      exact hF.maps o ho
    · intro f hf
      obtain ⟨S, s1, s2, s3⟩ := (hd'.maps f.1).length 0
      rw [List.drop_zero] at s1 s2
      rw [hW1 f hf]
      refine ⟨S, s1, s3, fun hl => ?_⟩
      have hk := (hfix f hf).2.1 (by rw [lensOf_mem hp.nodup hf, hl]) r hr ρ' hd'.sat
      rw [show r.length f.1 = lengthOf (r.maps f.1) (r.maps f.1).layers from rfl, s2] at hk
      rw [hk]
      obtain ⟨i, -, -, i3, -⟩ := h4 f hf
      have : A.length f.1 = A'.length f.1 := by
        unfold State.length
        rw [i3]
        simp [lengthOf, hl, relaxedLength, State.length]
      rw [this]
      exact E.den_congr (fun i hi => ha i (by omega)) _ (length_within (hp.maps f.1))
    · intro f hf hne p hpc k
      rw [hW1 f hf]
      have hpp := hp.conjs f hf p hpc
      by_cases hu : Untouched ρ' (r.maps f.1).layers k
      · rw [content_untouched hu]
        exact hF.conjs f hf hne p hpc k
      · unfold Untouched at hu
        push Not at hu
        obtain ⟨l, hl, j, hj, hjk⟩ := hu
        obtain ⟨it, hit, hkey⟩ := items_has_key (base := []) (ls := (r.maps f.1).layers) (k := j.key) (.inr ⟨l, hl, j, hj, rfl⟩)
        have hok := items_ok (hd'.maps f.1).distinct (show BaseOk ρ' (W f.1) [] (r.maps f.1).layers from by simp [BaseOk]) it hit
        rw [← setItems_eq] at hit
        unfold Item.ok at hok
        rw [hkey ρ', hjk] at hok
        rw [hok]
        simp only
        cases hpr : it.present.den ρ' with
        | false =>
          rcases habs f hf with hv | hall
          · exact hv p hpc _ _ _ _
          · rw [hall r hr it hit ρ' hd'.sat] at hpr
            simp at hpr
        | true =>
          obtain ⟨i, -, -, i3, i4, -⟩ := h4 f hf
          rw [if_neg (by rw [relaxedLength_empty]; exact hne)] at i4
          rw [← i4] at hpc
          obtain ⟨q, hq, rfl⟩ := List.mem_map.1 hpc
          have hm : named q ∈ (A.maps f.1).invs := by rw [i3]; exact List.mem_map.2 ⟨q, hq, rfl⟩
          have hcomp := (hfix f hf).1 _ hm r hr it hit noMaps ρ' hd'.sat hpr
          have hqb : ρ'.bl q.1 = true := by
            rw [← (ha q.1 (hpureA f.1 _ hm).1).2]
            exact ((hsat.2 f hf).1 q hq).1
          simp only [named, iimplies, IB.sem, B.den, hqb, Bool.not_true, Bool.false_or] at hcomp
          rw [hkey ρ', hjk, hpr] at hcomp
          rw [IB.sem_congr (fun i hi => ha i (by omega)) _ _ _ _ hpp]
          exact hcomp
    · intro f hf other ho
      cases hl : f.2.lens with
      | none => rw [hl] at ho; simp at ho
      | some l =>
        rw [hl] at ho
        have hk := (hfix f hf).2.2 l (by rw [lensOf_mem hp.nodup hf, hl]) other ho r hr ρ' hd'.sat
        rw [hcount, hcount] at hk
        rw [show contentNow A' fs W1 ρ f.1 = W1 f.1 from if_pos (List.mem_map.2 ⟨f, hf, rfl⟩)] at hk
        exact hk
  obtain ⟨A2, ρ1, g1, g2, g3, -⟩ := relax_fits (fuel := fuel) hp hF1 (fun _ => 0)
  rw [hA] at g1
  simp only [Option.some.injEq] at g1
  subst g1
  refine ⟨W1, ρ1, g2, g3, ?_⟩
  funext o k
  have hsame : A.contentAt W1 ρ1 o none = r.contentAt W ρ' o none := by
    unfold State.contentAt
    rw [show skip (A.maps o) none = 0 from rfl, show skip (r.maps o) none = 0 from rfl, List.drop_zero, List.drop_zero, hcur]
    unfold contentNow
    split
    · rename_i ho
      obtain ⟨f, hf, rfl⟩ := List.mem_map.1 ho
      obtain ⟨i, -, -, i3, -⟩ := h4 f hf
      rw [i3]
      rfl
    · rename_i ho
      rw [h3 o ho]
      exact (content_congr (fun i hi => g2 i (by omega)) _ fun l hl => ((hp.maps o).layers l hl).2).symm
  unfold State.maps'
  rw [hsame]

/-- An iteration keeps describing what the state before it did, where nothing is recorded about the forgotten maps but invariants. -/
theorem iteration_keeps {fuel top : Nat} {fs : List (Nat × Found)} {A' : State} (hp : Relaxable A' (max A'.next top) fs)
    (hb : ∀ f ∈ fs, (A'.maps f.1).blank ∧ List.Forall₂ Weaker f.2.conjs (A'.maps f.1).invs) {W : Nat → Contents} {ρ : Env} (hd : Describes A' W ρ)
    (hpairs : ∀ f ∈ fs, f.2.lens.getD [] ≠ [] → ∀ k, (W f.1 k).2 = false) :
    ∃ A ρ', relax fuel top fs A' = some A ∧ Agree (max A'.next top) ρ ρ' ∧ Describes A W ρ' ∧ A.maps' W ρ' = A'.maps' W ρ := by
  have hF : Fits A' fs W ρ := by
    refine ⟨hd.sat, fun o _ => hd.maps o, ?_, ?_, ?_⟩
    · intro f hf
      obtain ⟨S, s1, s2, s3⟩ := (hd.maps f.1).length 0
      rw [List.drop_zero] at s1 s2
      rw [(hb f hf).1.2] at s1
      exact ⟨S, s1, s3, fun _ => s2⟩
    · intro f hf _ p hpc k
      obtain ⟨old, hold, hw⟩ := forall₂_mem (hb f hf).2 p hpc
      exact hw _ _ _ _ _ ((hd.maps f.1).invs old hold k (by rw [(hb f hf).1.1]; simp))
    · intro f hf other ho
      have : ∀ k, (W f.1 k).2 = false := hpairs f hf (List.ne_nil_of_mem ho)
      have hc : Contents.count (W f.1) = 0 := by
        rw [count_eq (S := ∅)]
        · rfl
        · intro k; simp [this k]
      rw [hc]
      exact Nat.zero_le _
  obtain ⟨A, ρ', h1, h2, h3, -⟩ := relax_fits (fuel := fuel) hp hF (fun _ => 0)
  obtain ⟨A2, names, k1, k2, k3, k4, -⟩ := relax_spec fuel top fs A' hp (fun _ => 0) (fun _ => 0) (fun _ => false) (fun _ => 0) ρ
  rw [h1] at k1
  simp only [Option.some.injEq] at k1
  subst k1
  refine ⟨A, ρ', h1, h2, h3, ?_⟩
  funext o k
  have hle : A'.next ≤ max A'.next top := Nat.le_max_left _ _
  have hsame : A.contentAt W ρ' o none = A'.contentAt W ρ o none := by
    unfold State.contentAt
    rw [show skip (A.maps o) none = 0 from rfl, show skip (A'.maps o) none = 0 from rfl, List.drop_zero, List.drop_zero]
    by_cases ho : o ∈ fs.map Prod.fst
    · obtain ⟨f, hf, rfl⟩ := List.mem_map.1 ho
      obtain ⟨i, -, -, i3, -⟩ := k4 f hf
      rw [i3, (hb f hf).1.2]
      rfl
    · rw [k3 o ho]
      exact (content_congr (fun i hi => h2 i (by omega)) _ fun l hl => ((hp.maps o).layers l hl).2).symm
  unfold State.maps'
  rw [hsame]

end Verif.Tool.GhostMap

namespace Verif.Props

open Verif.Tool.GhostMap

/-- Handling one packet is explored: the maps `M` after the packet are those of one of the results, for every contents of the maps the state stands for. Results in which the
version of a map is the same have the same items in it. The symbols of the initial state have the values they have in `ρ0`. -/
structure PacketExplored (Step : Maps → Maps → Prop) (n0 : Nat) (ρ0 : Env) (A : State) (R : List State) : Prop where
  covers : ∀ W ρ M, Agree n0 ρ0 ρ → Describes A W ρ → Step (A.maps' W ρ) M → ∃ W1 ρ1, Agree n0 ρ0 ρ1 ∧ Describes A W1 ρ1 ∧ A.maps' W1 ρ1 = A.maps' W ρ ∧
    ∃ r ∈ R, ∃ ρ', Agree A.next ρ1 ρ' ∧ Describes r W1 ρ' ∧ r.maps' W1 ρ' = M
  within : ∀ r ∈ R, ∀ c ∈ r.constraints, c.within r.next
  unflattened : ∀ r ∈ R, ∀ o, (r.maps o).version = (A.maps o).version → SameLayers (r.maps o).layers (A.maps o).layers

/-- What C27 and C29 need of the exploration from a state `A` whose results are `R`; `changing` are the maps that packets change, `M0` the maps after initialization. -/
structure Suitable (Step : Maps → Maps → Prop) (n0 : Nat) (ρ0 : Env) (objs changing : List Nat) (M0 : Maps) (A : State) (R : List State) : Prop where
  explores : PacketExplored Step n0 ρ0 A R
  others : ∀ o, o ∉ objs → ∀ r ∈ R, (r.maps o).version = (A.maps o).version
  relevant : R ≠ [] → relevantObjs objs A R = changing
  lengths : ∀ o ∈ changing, (∃ k, (M0 o k).isSome) → ∀ r ∈ R, ∀ ρ, sat r.constraints ρ → (r.length o).den ρ = (A.length o).den ρ

/-- All set items of a map are present in all results. -/
def AlwaysPresent (R : List State) (o : Nat) : Prop := ∀ r ∈ R, ∀ i ∈ setItems (r.maps o).layers, ∀ ρ, sat r.constraints ρ → i.present.den ρ = true

/-- The state of the loop of C27: what holds of the state an iteration starts from. -/
structure LoopInv (n0 : Nat) (ρ0 : Env) (changing : List Nat) (ok : Nat → Prop) (A0 : State) (M0 : Maps) (A : State) (prev : Nat → Option (List Nat)) : Prop where
  next : n0 ≤ A.next
  start : ∃ W ρ, Agree n0 ρ0 ρ ∧ Describes A W ρ ∧ A.maps' W ρ = M0
  blank : ∀ o ∈ changing, (A.maps o).blank
  absent : ∀ o ∈ changing, (∀ p ∈ (A.maps o).invs, Vacuous p) ∨ ok o
  lens : ∀ o l, prev o = some l → l ≠ [] → ∀ k, M0 o k = none
  const : ∀ o ∈ changing, prev o = none → A.length o = A0.length o

theorem blank_content {st : State} {W : Nat → Contents} {ρ : Env} {o : Nat} (h : (st.maps o).blank) : st.contentAt W ρ o none = W o := by
  unfold State.contentAt
  rw [h.2]
  simp [content]

theorem LoopInv.iterate {Step : Maps → Maps → Prop} {n0 : Nat} {ρ0 : Env} {objs changing : List Nat} {ok : Nat → Prop} {A0 : State} {M0 : Maps} {A : State}
    {prev : Nat → Option (List Nat)} (h : LoopInv n0 ρ0 changing ok A0 M0 A prev) (hn : objs.Nodup) {R : List State} (hs : Suitable Step n0 ρ0 objs changing M0 A R) {fuel : Nat}
    {ancs : List State} {prev' : Nat → Option (List Nat)} (hi : infer fuel noGuess objs [A] R prev = some (.next ancs prev')) :
    ∃ A1 fs, ancs = [A1] ∧ prev' = lensOf fs ∧ fs.map Prod.fst = changing ∧ Relaxable A (max A.next (topOf R)) fs ∧ relax fuel (topOf R) fs A = some A1 ∧
      (∀ f ∈ fs, (∀ p ∈ f.2.conjs, Vacuous p) ∨ ok f.1) ∧ LoopInv n0 ρ0 changing ok A0 M0 A1 prev' := by
  have hR : R ≠ [] := by
    intro hR
    subst hR
    simp [infer] at hi
  obtain ⟨fs, h1, h2⟩ := infer_spec hi hR
  rcases h2 with ⟨h2, -⟩ | ⟨A1, hA1, h2⟩
  · simp at h2
  simp only [Inferred.next.injEq] at h2
  obtain ⟨rfl, rfl⟩ := h2
  rw [hs.relevant hR] at h1
  obtain ⟨hfst, hfs⟩ := inferObjs_mem h1
  obtain ⟨W, ρ, ha, hd, hM⟩ := h.start
  have hnd : changing.Nodup := by
    rw [← hs.relevant hR]
    exact hn.filter _
  have hwR : ∀ st ∈ R, ∀ c ∈ st.constraints, c.within (max A.next (topOf R)) := fun st hst c hc =>
    B.within_mono ((le_topOf hst).trans (Nat.le_max_right _ _)) _ (hs.explores.within st hst c hc)
  have hspec : ∀ f ∈ fs, f.2.preds = [] ∧ (∀ c ∈ f.2.conjs, c.pure (max A.next (topOf R))) ∧ List.Forall₂ Weaker f.2.conjs (A.maps f.1).invs ∧
      f.2.lens = (inferLength changing A R f.1 (prev f.1)).2 := fun f hf =>
    inferObj_spec hwR (fun c hc => IB.pure_mono (Nat.le_max_left _ _) _ ((hd.maps f.1).within.invs c hc)) (hfs f hf)
  have hmem : ∀ f ∈ fs, f.1 ∈ changing := fun f hf => by rw [← hfst]; exact List.mem_map.2 ⟨f, hf, rfl⟩
  have hplain : Relaxable A (max A.next (topOf R)) fs :=
    ⟨by rw [hfst]; exact hnd, fun f hf => (hspec f hf).1, fun f hf => (hspec f hf).2.1, fun o => (hd.maps o).within, hd.within⟩
  -- what is found about lengths is true at the start
  have hlens : ∀ f ∈ fs, ∀ l, f.2.lens = some l → l ≠ [] → ∀ k, M0 f.1 k = none := by
    intro f hf l hl hne k
    have hq := (hspec f hf).2.2.2
    rw [hl] at hq
    cases hpv : prev f.1 with
    | none =>
      rw [hpv] at hq
      by_contra hk
      have hsame := hs.lengths f.1 (hmem f hf) ⟨k, by cases hm : M0 f.1 k with
        | none => exact absurd hm hk
        | some v => rfl⟩
      have : (inferLength changing A R f.1 (prev f.1)).1 = false := inferLength_kept.2 ⟨fun _ => hsame, fun l' hl' => by rw [hpv] at hl'; simp at hl'⟩
      rw [hpv] at this
      simp only [inferLength] at this hq
      cases hg : getLengthInvariants f.1 changing R A with
      | none => rw [hg] at hq; simp at hq
      | some x => rw [hg] at this; simp at this
    | some l0 =>
      rw [hpv] at hq
      simp only [inferLength, Option.some.injEq] at hq
      refine h.lens f.1 l0 hpv ?_ k
      intro h0
      subst h0
      simp at hq
      exact hne hq
  have hW : ∀ o ∈ changing, (∀ k, M0 o k = none) → ∀ k, (W o k).2 = false := by
    intro o ho hk k
    have := hk k
    rw [← hM] at this
    unfold State.maps' at this
    rw [blank_content (h.blank o ho)] at this
    cases hw : (W o k).2 with
    | false => rfl
    | true => rw [hw] at this; simp at this
  obtain ⟨A2, ρ', k1, k2, k3, k4⟩ := iteration_keeps (fuel := fuel) hplain (fun f hf => ⟨h.blank f.1 (hmem f hf), (hspec f hf).2.2.1⟩) hd
    (by
      intro f hf hne
      cases hl : f.2.lens with
      | none => rw [hl] at hne; simp at hne
      | some l =>
        rw [hl] at hne
        exact hW f.1 (hmem f hf) (hlens f hf l hl hne))
  rw [hA1] at k1
  simp only [Option.some.injEq] at k1
  subst k1
  obtain ⟨A2, names, j1, j2, j3, j4, -⟩ := relax_spec fuel (topOf R) fs A hplain (fun _ => 0) (fun _ => 0) (fun _ => false) (fun _ => 0) ρ
  rw [hA1] at j1
  simp only [Option.some.injEq] at j1
  subst j1
  have hle : A.next ≤ max A.next (topOf R) := Nat.le_max_left _ _
  have hvac : ∀ f ∈ fs, (∀ p ∈ f.2.conjs, Vacuous p) ∨ ok f.1 := by
    intro f hf
    rcases h.absent f.1 (hmem f hf) with hv | ho
    · refine .inl fun p hp => ?_
      obtain ⟨old, hold, hw⟩ := forall₂_mem (hspec f hf).2.2.1 p hp
      exact fun M ρ k v => hw M ρ k v false (hv old hold M ρ k v)
    · exact .inr ho
  refine ⟨A1, fs, rfl, rfl, hfst, hplain, hA1, hvac, ?_⟩
  have hcm : ∀ o ∈ changing, ∃ f ∈ fs, f.1 = o := by
    intro o ho
    rw [← hfst] at ho
    obtain ⟨f, hf, rfl⟩ := List.mem_map.1 ho
    exact ⟨f, hf, rfl⟩
  refine ⟨h.next.trans (hle.trans j2), ⟨W, ρ', ha.trans k2 (h.next.trans hle), k3, by rw [k4, hM]⟩, ?_, ?_, ?_, ?_⟩
  · intro o ho
    obtain ⟨f, hf, rfl⟩ := hcm o ho
    obtain ⟨i, -, -, i3, -⟩ := j4 f hf
    rw [i3]
    exact ⟨rfl, rfl⟩
  · intro o ho
    obtain ⟨f, hf, rfl⟩ := hcm o ho
    obtain ⟨i, -, -, i3, i4, -⟩ := j4 f hf
    rcases hvac f hf with hv | ho
    · left
      rw [i3]
      intro p hp
      obtain ⟨q, hq, rfl⟩ := List.mem_map.1 hp
      have : q.2 ∈ (names f.1).map Prod.snd := List.mem_map.2 ⟨q, hq, rfl⟩
      rw [i4] at this
      split at this
      · simp at this
      · intro M ρ k v
        simp only [named, iimplies, IB.sem, Bool.or_eq_true]
        exact .inr (hv _ this M ρ k v)
    · exact .inr ho
  · intro o l hl hne k
    unfold lensOf at hl
    split at hl
    · simp at hl
    · rename_i f hf
      have hfm := List.mem_of_find?_eq_some hf
      have he := List.find?_some hf
      simp only [beq_iff_eq] at he
      rw [← he]
      exact hlens f hfm l hl hne k
  · intro o ho hl
    obtain ⟨f, hf, rfl⟩ := hcm o ho
    rw [lensOf_mem hplain.nodup hf] at hl
    have hpv : prev f.1 = none := by
      have hq := (hspec f hf).2.2.2
      rw [hl] at hq
      cases hpv : prev f.1 with
      | none => rfl
      | some l => rw [hpv] at hq; simp [inferLength] at hq
    rw [← h.const f.1 ho hpv]
    obtain ⟨i, -, -, i3, -⟩ := j4 f hf
    unfold State.length
    rw [i3]
    simp [lengthOf, hl, relaxedLength, State.length]

/-- How the loop of C27 ends. -/
theorem loop_ends {Step : Maps → Maps → Prop} {n0 : Nat} {ρ0 : Env} {objs changing : List Nat} {ok : Nat → Prop} {A0 : State} {M0 : Maps} {fuel : Nat} (hn : objs.Nodup)
    {explore : State → Option (List State)}
    (hs : ∀ A R, explore A = some R → n0 ≤ A.next → (∃ W ρ, Agree n0 ρ0 ρ ∧ Describes A W ρ) → (∀ o ∈ changing, (A.maps o).blank) → Suitable Step n0 ρ0 objs changing M0 A R ∧ ∀ o ∈ changing, ok o → AlwaysPresent R o) :
    ∀ (n : Nat) {A : State} {prev : Nat → Option (List Nat)} {ancs : List State} {R : List State} {lens : Nat → Option (List Nat)}, LoopInv n0 ρ0 changing ok A0 M0 A prev →
      (∃ A' top fs, prev = lensOf fs ∧ fs.map Prod.fst = changing ∧ Relaxable A' (max A'.next top) fs ∧ n0 ≤ A'.next ∧ relax fuel top fs A' = some A ∧ ∀ f ∈ fs, (∀ p ∈ f.2.conjs, Vacuous p) ∨ ok f.1) →
      fixpointLoop fuel noGuess objs explore n [A] prev = some (ancs, R, lens) →
      ∃ A' Af top fs, ancs = [Af] ∧ explore Af = some R ∧ lens = lensOf fs ∧ fs.map Prod.fst = changing ∧ Relaxable A' (max A'.next top) fs ∧ n0 ≤ A'.next ∧ relax fuel top fs A' = some Af ∧
        (∀ f ∈ fs, (∀ p ∈ f.2.conjs, Vacuous p) ∨ ok f.1) ∧ LoopInv n0 ρ0 changing ok A0 M0 Af lens ∧ infer fuel noGuess objs [Af] R lens = some .fixpoint
  | 0, A, prev, ancs, R, lens, _, _, h => by simp [fixpointLoop] at h
  | n + 1, A, prev, ancs, R, lens, hinv, hfs, h => by
    unfold fixpointLoop at h
    split at h
    · simp at h
    · rename_i R' hR'
      have hex : explore A = some R' := by
        unfold exploreAll allSome at hR'
        cases he : explore A with
        | none => rw [he] at hR'; simp at hR'
        | some l => rw [he] at hR'; simpa [allSome] using hR'
      obtain ⟨W, ρ, ha, hd, hM⟩ := hinv.start
      have hsu := (hs A R' hex hinv.next ⟨W, ρ, ha, hd⟩ hinv.blank).1
      split at h
      · simp at h
      · rename_i hi
        simp only [Option.some.injEq, Prod.mk.injEq] at h
        obtain ⟨rfl, rfl, rfl⟩ := h
        obtain ⟨A', top, fs, e1, e2, e3, e4, e5, e6⟩ := hfs
        subst e1
        exact ⟨A', A, top, fs, rfl, hex, rfl, e2, e3, e4, e5, e6, hinv, hi⟩
      · rename_i ancs' prev' hi
        obtain ⟨A1, fs, rfl, rfl, f1, f2, f3, f4, f5⟩ := hinv.iterate hn hsu hi
        exact loop_ends hn hs n f5 ⟨A, topOf R', fs, rfl, f1, f2, hinv.next, f3, f4⟩ h

/-- C27 and C29 together. -/
theorem histories {Step : Maps → Maps → Prop} {objs changing : List Nat} {fuel : Nat} (hn : objs.Nodup) {explore : State → Option (List State)} {A0 : State} {W0 : Nat → Contents} {ρ0 : Env}
    {n0 : Nat} (hn0 : n0 ≤ A0.next) (hd : Describes A0 W0 ρ0) (hb : ∀ o ∈ changing, (A0.maps o).blank) {ok : Nat → Prop} (hv : ∀ o ∈ changing, (∀ p ∈ (A0.maps o).invs, Vacuous p) ∨ ok o)
    (hs : ∀ A R, explore A = some R → n0 ≤ A.next → (∃ W ρ, Agree n0 ρ0 ρ ∧ Describes A W ρ) → (∀ o ∈ changing, (A.maps o).blank) → Suitable Step n0 ρ0 objs changing (A0.maps' W0 ρ0) A R ∧
      ∀ o ∈ changing, ok o → AlwaysPresent R o)
    {n : Nat} {R0 : List State} {ancs0 ancs R : List State} {prev lens : Nat → Option (List Nat)} (he : explore A0 = some R0) (hi : infer fuel noGuess objs [A0] R0 (fun _ => none) = some (.next ancs0 prev))
    (hl : fixpointLoop fuel noGuess objs explore n ancs0 prev = some (ancs, R, lens)) :
    ∃ A, ancs = [A] ∧ ∀ M, Relation.ReflTransGen Step (A0.maps' W0 ρ0) M → ∃ W ρ, Agree n0 ρ0 ρ ∧ Describes A W ρ ∧ A.maps' W ρ = M ∧
      (∀ o ∈ changing, ∀ p ∈ (A.maps o).invs, ∀ k v, M o k = some v → p.sem noMaps ρ k v true = true) ∧
      (∀ M', Step M M' → ∃ r ∈ R, ∃ W1 ρ1, Agree n0 ρ0 ρ1 ∧ Describes r W1 ρ1 ∧ r.maps' W1 ρ1 = M') ∧
      (∀ o ∈ changing, lens o = none → (A0.length o).within n0 → {k | (M o k).isSome}.ncard = {k | (A0.maps' W0 ρ0 o k).isSome}.ncard) ∧
      (∀ o ∈ changing, ∀ l, lens o = some l → ∀ other ∈ l, {k | (M o k).isSome}.ncard ≤ {k | (M other k).isSome}.ncard) := by
  have hinv0 : LoopInv n0 ρ0 changing ok A0 (A0.maps' W0 ρ0) A0 (fun _ => none) :=
    ⟨hn0, ⟨W0, ρ0, Agree.refl _ _, hd, rfl⟩, hb, hv, by simp, fun _ _ _ => rfl⟩
  obtain ⟨A1, fs, rfl, rfl, f1, f2, f3, f4, f5⟩ := hinv0.iterate hn (hs A0 R0 he hn0 ⟨W0, ρ0, Agree.refl _ _, hd⟩ hb).1 hi
  obtain ⟨A', A, top, fs, rfl, hex, rfl, g2, g3, g4, g5, g6, g7, g8⟩ := loop_ends hn hs n f5 ⟨A0, topOf R0, fs, rfl, f1, f2, hn0, f3, f4⟩ hl
  obtain ⟨Ws, ρs, has, hds, hMs⟩ := g7.start
  obtain ⟨hsu, hok⟩ := hs A R hex g7.next ⟨Ws, ρs, has, hds⟩ g7.blank
  refine ⟨A, rfl, ?_⟩
  have hle : n0 ≤ max A'.next top := g4.trans (Nat.le_max_left _ _)
  have key : ∀ M, Relation.ReflTransGen Step (A0.maps' W0 ρ0) M → ∃ W ρ, Agree n0 ρ0 ρ ∧ Describes A W ρ ∧ A.maps' W ρ = M := by
    intro M hM
    induction hM with
    | refl => exact ⟨Ws, ρs, has, hds, hMs⟩
    | tail _ hstep ih =>
      obtain ⟨W, ρ, a1, a2, a3⟩ := ih
      rw [← a3] at hstep
      obtain ⟨W1, ρ1, b1, b2, b3, r, hr, ρ', b4, b5, b6⟩ := hsu.explores.covers W ρ _ a1 a2 hstep
      have hR : R ≠ [] := List.ne_nil_of_mem hr
      have hrel := hsu.relevant hR
      obtain ⟨W2, ρ2, c1, c2, c3⟩ := fixpoint_step g3 g5 g8 (hrel.trans g2.symm)
        (fun f hf => (g6 f hf).imp id fun ho => hok f.1 (by rw [← g2]; exact List.mem_map.2 ⟨f, hf, rfl⟩) ho) hr
        (fun o ho => by
          refine hsu.explores.unflattened r hr o ?_
          by_cases hobj : o ∈ objs
          · by_contra hne
            refine ho ?_
            rw [g2, ← hrel]
            simp only [relevantObjs, List.mem_filter, List.any_eq_true, State.version, bne_iff_ne]
            exact ⟨hobj, r, hr, hne⟩
          · exact hsu.others o hobj r hr) b2 b4 b5
      exact ⟨W2, ρ2, b1.trans c1 hle, c2, c3.trans b6⟩
  intro M hM
  obtain ⟨W, ρ, a1, a2, a3⟩ := key M hM
  have hlen : ∀ o, (A.length o).den ρ = {k | (M o k).isSome}.ncard := fun o => by rw [← a3]; exact length_card a2 o
  refine ⟨W, ρ, a1, a2, a3, ?_, ?_, ?_, ?_⟩
  · intro o ho p hp k v hk
    have hx := (a2.maps o).invs p hp k (by rw [(g7.blank o ho).1]; simp)
    rw [← a3] at hk
    unfold State.maps' at hk
    rw [blank_content (g7.blank o ho)] at hk
    split at hk
    · rename_i hpres
      simp only [Option.some.injEq] at hk
      rw [hpres, hk] at hx
      exact hx
    · simp at hk
  · intro M' hstep
    rw [← a3] at hstep
    obtain ⟨W1, ρ1, b1, b2, b3, r, hr, ρ', b4, b5, b6⟩ := hsu.explores.covers W ρ _ a1 a2 hstep
    exact ⟨r, hr, W1, ρ', b1.trans b4 g7.next, b5, b6⟩
  · intro o ho hl hw
    rw [← hlen, g7.const o ho hl, ← length_card hd o]
    exact (E.den_congr a1 _ hw).symm
  · intro o ho l hl other hother
    rw [← hlen, ← hlen]
    obtain ⟨A2, names, k1, k2, k3, k4, k5, k6, -⟩ := relax_spec fuel top fs A' g3 (fun _ => 0) (fun _ => 0) (fun _ => false) (fun _ => 0) ρ
    rw [g5] at k1
    simp only [Option.some.injEq] at k1
    subst k1
    rw [← g2] at ho
    obtain ⟨f, hf, rfl⟩ := List.mem_map.1 ho
    rw [lensOf_mem g3.nodup hf] at hl
    exact (((k6 ρ).1 a2.sat).2 f hf).2 other (by rw [hl]; exact hother)

/-- C27, for one initial state, no guessed relations between maps, invariants that read no map, and an initialization that has recorded nothing but invariants about the maps that packets change:
when the loop stops after at least one iteration, then after any number of packets all invariants of the state `A` it stops with hold of what is present in the maps,
and everything the next packet can lead to is in the results. The maps packets change are the same in all iterations, those whose length changes are initially empty, and either the initial invariants of a map say nothing
about absent keys or packets never remove its keys.
What is missing: several initial states, invariants that read other maps, and maps that initialization has put items into; `C27_cross_map_lost`, `C27_flattened_lost` and `C27_single_element_lost`
show that the property is false for the last two. -/
theorem C27_histories_partial {Step : Maps → Maps → Prop} {objs changing : List Nat} {fuel : Nat} (hn : objs.Nodup) {explore : State → Option (List State)} {A0 : State} {W0 : Nat → Contents} {ρ0 : Env}
    {n0 : Nat} (hn0 : n0 ≤ A0.next) (hd : Describes A0 W0 ρ0) (hb : ∀ o ∈ changing, (A0.maps o).blank) {ok : Nat → Prop} (hv : ∀ o ∈ changing, (∀ p ∈ (A0.maps o).invs, Vacuous p) ∨ ok o)
    (hs : ∀ A R, explore A = some R → n0 ≤ A.next → (∃ W ρ, Agree n0 ρ0 ρ ∧ Describes A W ρ) → (∀ o ∈ changing, (A.maps o).blank) →
      Suitable Step n0 ρ0 objs changing (A0.maps' W0 ρ0) A R ∧ ∀ o ∈ changing, ok o → AlwaysPresent R o)
    {n : Nat} {R0 : List State} {ancs0 ancs R : List State} {prev lens : Nat → Option (List Nat)} (he : explore A0 = some R0)
    (hi : infer fuel noGuess objs [A0] R0 (fun _ => none) = some (.next ancs0 prev)) (hl : fixpointLoop fuel noGuess objs explore n ancs0 prev = some (ancs, R, lens)) :
    ∃ A, ancs = [A] ∧ ∀ M, Relation.ReflTransGen Step (A0.maps' W0 ρ0) M → ∃ W ρ, Describes A W ρ ∧ A.maps' W ρ = M ∧
      (∀ o ∈ changing, ∀ p ∈ (A.maps o).invs, ∀ k v, M o k = some v → p.sem noMaps ρ k v true = true) ∧
      (∀ M', Step M M' → ∃ r ∈ R, ∃ W1 ρ1, Describes r W1 ρ1 ∧ r.maps' W1 ρ1 = M') := by
  obtain ⟨A, h1, h2⟩ := histories hn hn0 hd hb hv hs he hi hl
  refine ⟨A, h1, fun M hM => ?_⟩
  obtain ⟨W, ρ, -, a2, a3, a4, a5, -⟩ := h2 M hM
  refine ⟨W, ρ, a2, a3, a4, fun M' hM' => ?_⟩
  obtain ⟨r, hr, W1, ρ1, -, b2, b3⟩ := a5 M' hM'
  exact ⟨r, hr, W1, ρ1, b2, b3⟩

/-- C29, where C27 is proved: after any number of packets, the number of keys of a map whose length was never found to change is the initial one, and every relation between lengths
that the loop ends with holds of the numbers of keys. What is missing is what is missing in `C27_histories_partial`; `C27_flattened_lost` shows a length that changes though it is taken to be constant. -/
theorem C29_histories_partial {Step : Maps → Maps → Prop} {objs changing : List Nat} {fuel : Nat} (hn : objs.Nodup) {explore : State → Option (List State)} {A0 : State} {W0 : Nat → Contents} {ρ0 : Env}
    {n0 : Nat} (hn0 : n0 ≤ A0.next) (hd : Describes A0 W0 ρ0) (hb : ∀ o ∈ changing, (A0.maps o).blank) {ok : Nat → Prop} (hv : ∀ o ∈ changing, (∀ p ∈ (A0.maps o).invs, Vacuous p) ∨ ok o)
    (hs : ∀ A R, explore A = some R → n0 ≤ A.next → (∃ W ρ, Agree n0 ρ0 ρ ∧ Describes A W ρ) → (∀ o ∈ changing, (A.maps o).blank) →
      Suitable Step n0 ρ0 objs changing (A0.maps' W0 ρ0) A R ∧ ∀ o ∈ changing, ok o → AlwaysPresent R o)
    {n : Nat} {R0 : List State} {ancs0 ancs R : List State} {prev lens : Nat → Option (List Nat)} (he : explore A0 = some R0)
    (hi : infer fuel noGuess objs [A0] R0 (fun _ => none) = some (.next ancs0 prev)) (hl : fixpointLoop fuel noGuess objs explore n ancs0 prev = some (ancs, R, lens)) :
    ∀ M, Relation.ReflTransGen Step (A0.maps' W0 ρ0) M →
      (∀ o ∈ changing, lens o = none → (A0.length o).within n0 → {k | (M o k).isSome}.ncard = {k | (A0.maps' W0 ρ0 o k).isSome}.ncard) ∧
      (∀ o ∈ changing, ∀ l, lens o = some l → ∀ other ∈ l, {k | (M o k).isSome}.ncard ≤ {k | (M other k).isSome}.ncard) := by
  obtain ⟨A, -, h2⟩ := histories hn hn0 hd hb hv hs he hi hl
  intro M hM
  obtain ⟨W, ρ, -, -, -, -, -, a6, a7⟩ := h2 M hM
  exact ⟨a6, a7⟩

/- An example: one map, empty at first; every packet sets key 0 to 1. -/

namespace InferExample

def start : State := ⟨[.not (.var 0)], 2, fun _ => ⟨[.not .present], [], .const 0, ⟨.var 0, .var 1, .var 0⟩, []⟩⟩
def world : Nat → Contents := fun _ _ => (0, false)
def env : Env := ⟨fun i => if i = 0 then 1 else 0, fun _ => false⟩

def item : Item := ⟨.const 0, .const 1, .lit true⟩

def afterMap (m : MapS) (n : Nat) : MapS :=
  { m with base := m.base ++ [⟨.const 0, .var n, .var n⟩], layers := ⟨[item], m.baseLength.add (.ite (.var n) (.const 0) (.const 1)), (0, [])⟩ :: m.layers }

def after (A : State) : State := { A with next := A.next + 1 }.setMap 0 (afterMap (A.maps 0) A.next)

def Step (M M' : Maps) : Prop := M' = M.put 0 0 (some 1) ∧ {k | (M 0 k).isSome}.ncard + 1 < 2 ^ 64

theorem start_describes (W : Nat → Contents) (ρ : Env) (h1 : ρ.bl 0 = false) (h2 : ∀ o k, (W o k).2 = false) (h3 : ∀ o, (W o (ρ.bv 0)).1 = ρ.bv 1) : Describes start W ρ := by
  refine ⟨by simp [start, sat, B.den, h1], by simp [start, B.within], fun o => ⟨⟨by simp [start], trivial, ⟨?_, ?_, ?_⟩, by simp [start], by simp [start, IB.pure]⟩, trivial, by simp [start],
    by simp [start, BaseOk], by simp [start, Untouched], ?_, by simp [start], ?_, ?_⟩⟩
  · show 0 < 2; omega
  · show 1 < 2; omega
  · show 0 < 2; omega
  · show W o (ρ.bv 0) = (ρ.bv 1, ρ.bl 0)
    exact Prod.ext (h3 o) (by rw [h2, h1])
  · simp [start, IB.sem, h2]
  · intro d
    refine ⟨∅, ?_, ?_, by simp⟩
    · intro k; simp [start, content, h2]
    · simp [start, lengthOf, E.den]

theorem after_describes {A : State} {W : Nat → Contents} {ρ : Env} (hd : Describes A W ρ) (hb : (A.maps 0).blank) (hu : (A.maps 0).unknown.key.den ρ ≠ 0)
    (hs : {k | (A.maps' W ρ 0 k).isSome}.ncard + 1 < 2 ^ 64) :
    ∃ ρ', Agree A.next ρ ρ' ∧ Describes (after A) W ρ' ∧ (after A).maps' W ρ' = (A.maps' W ρ).put 0 0 (some 1) := by
  let ρ' := ρ.assign A.next (W 0 0).1 (W 0 0).2
  have ha : Agree A.next ρ ρ' := agree_assign _ _ _ _
  have hm0 := (hd.maps 0).congr (Nat.le_succ A.next) ha
  have hit : W 0 0 = (ρ'.bv A.next, ρ'.bl A.next) := by simp [ρ', Env.assign]
  have hlen0 := length_card hd 0
  have hroom : HasRoom (W 0) := by
    intro S hS
    have hc : Contents.count (W 0) = S.card := count_eq hS
    have : (lengthOf (A.maps 0) (A.maps 0).layers).den ρ = Contents.count (W 0) := by
      have := (hd.maps 0).length 0
      rw [List.drop_zero] at this
      rw [this.count, hb.2]; rfl
    omega
  have hlenOk : LenOk ρ' (W 0) (A.maps 0).baseLength := by
    have := hm0.length 0
    rw [List.drop_zero, hb.2] at this
    exact this
  have hmap : MapOk (A.next + 1) ρ' (W 0) (afterMap (A.maps 0) A.next) := by
    have h1 : MapOk (A.next + 1) ρ' (W 0) { A.maps 0 with base := (A.maps 0).base ++ [⟨.const 0, .var A.next, .var A.next⟩] } :=
      hm0.addItem (item := ⟨.const 0, .var A.next, .var A.next⟩) ⟨trivial, Nat.lt_succ_self _, Nat.lt_succ_self _⟩ (fun _ => hit)
    refine h1.addLayer (item := item) ⟨trivial, trivial, trivial⟩ ⟨hm0.within.length, ⟨Nat.lt_succ_self _, trivial, trivial⟩⟩ ?_ ?_ ?_
    · show (A.maps 0).unknown.key.den ρ' ≠ 0
      rw [← E.den_congr ha _ (hd.maps 0).within.unknown.1]
      exact hu
    · exact .inl ⟨⟨.const 0, .var A.next, .var A.next⟩, by simp, rfl⟩
    · rw [override_single]
      show LenOk ρ' (Function.update (content ρ' (W 0) (A.maps 0).layers) 0 (1, true)) _
      rw [hb.2]
      refine lenOk_insert hlenOk hroom rfl ?_
      have hbl : ρ'.bl A.next = (W 0 0).2 := by simp [ρ', Env.assign]
      simp only [E.den, B.den, content, hbl]
      by_cases h : (W 0 0).2 = true <;> simp [h]
  refine ⟨ρ', ha, ⟨?_, ?_, ?_⟩, ?_⟩
  · intro c hc
    rw [← B.den_congr ha _ (hd.within c hc)]
    exact hd.sat c hc
  · exact fun c hc => B.within_mono (Nat.le_succ _) _ (hd.within c hc)
  · intro o
    by_cases ho : o = 0
    · subst ho; exact hmap
    · have := (hd.maps o).congr (Nat.le_succ A.next) ha
      simpa [after, State.setMap, ho] using this
  · funext o k
    unfold Maps.put State.maps'
    by_cases ho : o = 0
    · subst ho
      have h1 : (after A).contentAt W ρ' 0 none = Function.update (W 0) 0 (1, true) := by
        unfold State.contentAt
        rw [show skip ((after A).maps 0) none = 0 from rfl, List.drop_zero]
        show content ρ' (W 0) (⟨[item], _, _⟩ :: (A.maps 0).layers) = _
        rw [hb.2]
        simp only [content]
        rw [override_single]
        rfl
      rw [h1, blank_content hb]
      by_cases hk : k = 0
      · simp [hk]
      · simp [hk]
    · have h1 : (after A).contentAt W ρ' o none = A.contentAt W ρ o none :=
        contentAt_congr hd ha (by simp [after, State.setMap, ho, SameLayers])
      rw [h1]
      simp [ho]

theorem after_version (A : State) (hb : (A.maps 0).blank) (o : Nat) : ((after A).maps o).version = (A.maps o).version ↔ o ≠ 0 := by
  by_cases ho : o = 0
  · subst ho
    simp [after, State.setMap, afterMap, MapS.version, hb.2]
  · simp [after, State.setMap, ho]

theorem suitable {A : State} (hb : (A.maps 0).blank) (hw : ∀ c ∈ A.constraints, c.within A.next)
    (hr : ∀ W ρ, Describes A W ρ → ∃ W1 ρ1, Describes A W1 ρ1 ∧ A.maps' W1 ρ1 = A.maps' W ρ ∧ (A.maps 0).unknown.key.den ρ1 ≠ 0) :
    Suitable Step 0 env [0] [0] (start.maps' world env) A [after A] := by
  refine ⟨⟨?_, ?_, ?_⟩, ?_, ?_, ?_⟩
  · rintro W ρ M - hd ⟨rfl, hc⟩
    obtain ⟨W1, ρ1, g1, g2, g3⟩ := hr W ρ hd
    obtain ⟨ρ', k1, k2, k3⟩ := after_describes g1 hb g3 (by rw [g2]; exact hc)
    exact ⟨W1, ρ1, fun i hi => absurd hi (Nat.not_lt_zero _), g1, g2, after A, by simp, ρ', k1, k2, by rw [k3, g2]⟩
  · intro r hr' c hc
    simp only [List.mem_singleton] at hr'
    subst hr'
    exact B.within_mono (Nat.le_succ _) _ (hw c hc)
  · intro r hr' o ho
    simp only [List.mem_singleton] at hr'
    subst hr'
    rw [after_version A hb] at ho
    simp [after, State.setMap, ho, SameLayers]
  · intro o ho r hr'
    simp only [List.mem_singleton] at hr'
    subst hr'
    rw [after_version A hb]
    simpa using ho
  · intro _
    have := (after_version A hb 0).not
    simp only [ne_eq, not_true_eq_false, not_false_eq_true, iff_true] at this
    simp [relevantObjs, State.version, this]
  · intro o _ hk
    obtain ⟨k, hk⟩ := hk
    simp [State.maps', State.contentAt, start, content, world] at hk

theorem start_blank : (start.maps 0).blank := ⟨rfl, rfl⟩

theorem after_items (A : State) (hb : (A.maps 0).blank) : setItems ((after A).maps 0).layers = [item] := by
  have : ((after A).maps 0).layers = [⟨[item], (A.maps 0).baseLength.add (.ite (.var A.next) (.const 0) (.const 1)), (0, [])⟩] := by
    show _ :: (A.maps 0).layers = _
    rw [hb.2]
  rw [this]
  simp [setItems, transform]

theorem start_sat : sat (after start).constraints env := by simp [after, start, State.setMap, sat, B.den, env]

/-- The first iteration finds something about the map, and goes on. -/
theorem first : ∃ f A1, infer 1 noGuess [0] [start] [after start] (fun _ => none) = some (.next [A1] (lensOf [(0, f)])) ∧ Relaxable start (max start.next (topOf [after start])) [(0, f)] ∧
    relax 1 (topOf [after start]) [(0, f)] start = some A1 ∧ (∀ c ∈ f.conjs, Complies start.constraints item c) ∧ f.lens = some [] := by
  have hrel : relevantObjs [0] start [after start] = [0] := by
    have := (after_version start start_blank 0).not
    simp only [ne_eq, not_true_eq_false, not_false_eq_true, iff_true] at this
    simp [relevantObjs, State.version, this]
  have hpure : ∀ c ∈ (start.maps 0).invs, c.pure (max start.next (topOf [after start])) := by simp [start, IB.pure]
  obtain ⟨conjs, ch, h1, h2, h3, h4⟩ := flatten_still (fuel := 1) (anc := getVariables [0] [start]) (obj := 0) (start.maps 0).invs false [after start]
    (fun c hc => IB.still_of_pure _ (hpure c hc))
  have hch : ch = true := by
    cases hc : ch with
    | true => rfl
    | false =>
      have := (h4.1 hc).2 (.not .present) (by simp [start]) (after start) (by simp) item (by rw [after_items start start_blank]; simp) noMaps env start_sat rfl
      simp [IB.sem, item, B.den] at this
  subst hch
  have hlen : (inferLength [0] start [after start] 0 none) = (true, some []) := by
    have hne : ¬ ((inferLength [0] start [after start] 0 ((fun _ => none : Nat → Option (List Nat)) 0)).1 = false) := by
      intro hx
      have := (inferLength_kept (prev := fun _ => none)).1 hx
      obtain ⟨h, -⟩ := this
      have := h rfl (after start) (by simp) env start_sat
      simp [State.length, lengthOf, after, State.setMap, afterMap, start, E.add, E.den, B.den, env] at this
    simp only [inferLength] at hne ⊢
    unfold getLengthInvariants at hne ⊢
    split
    · rename_i hx
      rw [if_pos] at hne
      · simp at hne
      · by_contra hy
        rw [if_neg hy] at hx
        simp at hx
    · rename_i l hx
      split at hx
      · simp at hx
      · simp only [Option.some.injEq] at hx
        rw [← hx]
        simp
  have hf : inferObj 1 noGuess [0] (getVariables [0] [start]) start (fun _ => none) [after start] 0 = some ⟨true, conjs, [], some []⟩ := by
    unfold inferObj
    rw [h1]
    simp [noGuess_none, hlen]
  have hplain : Relaxable start (max start.next (topOf [after start])) [(0, ⟨true, conjs, [], some []⟩)] := by
    have hd := start_describes world env rfl (fun _ _ => rfl) (fun _ => rfl)
    have hsp := (inferObj_spec (n := max start.next (topOf [after start])) (by
      intro st hst c hc
      simp only [List.mem_singleton] at hst
      subst hst
      exact B.within_mono (Nat.le_max_left _ _) _ (hd.within c hc)) hpure hf).2.1
    exact ⟨by simp, by simp, by simpa using hsp, fun o => (hd.maps o).within, hd.within⟩
  obtain ⟨A1, -, hA1, -⟩ := relax_spec 1 (topOf [after start]) _ start hplain (fun _ => 0) (fun _ => 0) (fun _ => false) (fun _ => 0) env
  refine ⟨⟨true, conjs, [], some []⟩, A1, ?_, hplain, hA1, ?_, rfl⟩
  · simp [infer, hrel, inferObjs, hf, allSome, hA1]
  · intro c hc
    exact h3 c hc (after start) (by simp) item (by rw [after_items start start_blank]; simp)

/-- What the first iteration goes on with. -/
noncomputable def second : State := first.choose_spec.choose

theorem second_spec : ∃ f, infer 1 noGuess [0] [start] [after start] (fun _ => none) = some (.next [second] (lensOf [(0, f)])) ∧ Relaxable start (max start.next (topOf [after start])) [(0, f)] ∧
    relax 1 (topOf [after start]) [(0, f)] start = some second ∧ (∀ c ∈ f.conjs, Complies start.constraints item c) ∧ f.lens = some [] :=
  ⟨first.choose, first.choose_spec.choose_spec⟩

open Classical in
/-- Packets are handled from the states the loop goes through. -/
noncomputable def explore (A : State) : Option (List State) := if A = start ∨ A = second then some [after A] else none

theorem second_blank : (second.maps 0).blank := by
  obtain ⟨f, -, hp, hr, -⟩ := second_spec
  obtain ⟨A, names, h1, -, -, h4, -⟩ := relax_spec 1 (topOf [after start]) _ start hp (fun _ => 0) (fun _ => 0) (fun _ => false) (fun _ => 0) env
  rw [hr] at h1
  simp only [Option.some.injEq] at h1
  subst h1
  obtain ⟨i, -, -, i3, -⟩ := h4 (0, f) (by simp)
  simp only at i3
  rw [i3]
  exact ⟨rfl, rfl⟩

theorem explore_suitable (A : State) (R : List State) (he : explore A = some R) (hd : ∃ W ρ, Agree 0 env ρ ∧ Describes A W ρ) :
    Suitable Step 0 env [0] [0] (start.maps' world env) A R := by
  unfold explore at he
  split at he
  · rename_i hA
    simp only [Option.some.injEq] at he
    subst he
    obtain ⟨W0, ρ0, -, hd0⟩ := hd
    rcases hA with rfl | rfl
    · refine suitable start_blank hd0.within ?_
      intro W ρ hd
      have hempty : ∀ o k, (W o k).2 = false := by
        intro o k
        have := (hd.maps o).invs (.not .present) (by simp [start]) k (by simp [start])
        simpa [IB.sem] using this
      have hg := start_describes world env rfl (fun _ _ => rfl) (fun _ => rfl)
      refine ⟨world, env, hg, ?_, by simp [start, E.den, env]⟩
      funext o k
      simp [State.maps', State.contentAt, start, content, world, hempty]
    · refine suitable second_blank hd0.within ?_
      intro W ρ hd
      obtain ⟨f, -, hp, hr, -⟩ := second_spec
      obtain ⟨A2, ρ', h1, h2, h3, h4⟩ := relax_fits (fuel := 1) hp (fits_of_relax hp hr hd) (fun _ => 1)
      rw [hr] at h1
      simp only [Option.some.injEq] at h1
      subst h1
      refine ⟨W, ρ', h3, ?_, by rw [h4 (0, f) (by simp)]; simp⟩
      have hmaps : ∀ o, (second.maps o).layers = [] := by
        intro o
        obtain ⟨A, names, h1, -, h3, -⟩ := relax_spec 1 (topOf [after start]) _ start hp (fun _ => 0) (fun _ => 0) (fun _ => false) (fun _ => 0) env
        rw [hr] at h1
        simp only [Option.some.injEq] at h1
        subst h1
        by_cases ho : o = 0
        · subst ho; exact second_blank.2
        · rw [h3 o (by simpa using ho)]; rfl
      funext o k
      simp [State.maps', State.contentAt, hmaps, content]
  · simp at he

/-- The second iteration finds nothing new. -/
theorem stops : ∃ f, infer 1 noGuess [0] [start] [after start] (fun _ => none) = some (.next [second] (lensOf [(0, f)])) ∧
    fixpointLoop 1 noGuess [0] explore 1 [second] (lensOf [(0, f)]) = some ([second], [after second], lensOf [(0, f)]) := by
  obtain ⟨f, h1, hp, hr, hc, hl⟩ := second_spec
  refine ⟨f, h1, ?_⟩
  obtain ⟨A, names, k1, -, -, k4, -, k6, -⟩ := relax_spec 1 (topOf [after start]) _ start hp (fun _ => 0) (fun _ => 0) (fun _ => false) (fun _ => 0) env
  rw [hr] at k1
  simp only [Option.some.injEq] at k1
  subst k1
  obtain ⟨i, -, -, i3, i4, -⟩ := k4 (0, f) (by simp)
  simp only at i3 i4
  have hrel : relevantObjs [0] second [after second] = [0] := by
    have := (after_version second second_blank 0).not
    simp only [ne_eq, not_true_eq_false, not_false_eq_true, iff_true] at this
    simp [relevantObjs, State.version, this]
  have hmem : ∀ c ∈ (second.maps 0).invs, ∃ q : Nat × IB, c = named q ∧ q.2 ∈ f.conjs := by
    intro c hcm
    rw [i3] at hcm
    obtain ⟨q, hq, rfl⟩ := List.mem_map.1 hcm
    refine ⟨q, rfl, ?_⟩
    have : q.2 ∈ (names 0).map Prod.snd := List.mem_map.2 ⟨q, hq, rfl⟩
    rw [i4] at this
    split at this
    · simp at this
    · exact this
  have hobj := (inferObj_unchanged (fuel := 1) (guess := noGuess) (relevant := [0]) (vars := getVariables [0] [second]) (anc := second) (prev := lensOf [(0, f)]) (sts := [after second]) (obj := 0)
    (by
      intro c hcm
      obtain ⟨q, rfl, hq⟩ := hmem c hcm
      exact ⟨trivial, IB.still_of_pure _ (hp.conjs (0, f) (by simp) _ hq)⟩)).2
    ⟨by
      intro c hcm st hst it hit
      simp only [List.mem_singleton] at hst
      subst hst
      rw [after_items second second_blank, List.mem_singleton] at hit
      subst hit
      obtain ⟨q, rfl, hq⟩ := hmem c hcm
      intro M ρ hs hpres
      simp only [named, iimplies, IB.sem, Bool.or_eq_true]
      exact .inr (hc _ hq M ρ ((k6 ρ).1 hs).1 hpres),
    by
      refine ⟨fun h => ?_, fun l h => ?_⟩
      · rw [lensOf_mem hp.nodup (f := (0, f)) (by simp)] at h
        simp [hl] at h
      · rw [lensOf_mem hp.nodup (f := (0, f)) (by simp)] at h
        simp only [hl, Option.some.injEq] at h
        subst h
        simp⟩
  obtain ⟨g, hg, hgc⟩ := hobj
  have hex : explore second = some [after second] := by simp [explore]
  have hi : infer 1 noGuess [0] [second] [after second] (lensOf [(0, f)]) = some .fixpoint := by
    simp [infer, hrel, inferObjs, hg, hgc]
  unfold fixpointLoop
  simp [exploreAll, allSome, hex, hi]

end InferExample

open InferExample in
/-- The hypotheses of `C27_histories_partial` and `C29_histories_partial` can be met: one map, empty at first; every packet sets key 0 to 1. -/
example : ∃ f, (∀ A R, explore A = some R → 0 ≤ A.next → (∃ W ρ, Agree 0 env ρ ∧ Describes A W ρ) → (∀ o ∈ [0], (A.maps o).blank) →
      Suitable Step 0 env [0] [0] (start.maps' world env) A R ∧ ∀ o ∈ [0], False → AlwaysPresent R o) ∧ Describes start world env ∧
    (∀ o ∈ [0], (∀ p ∈ (start.maps o).invs, Vacuous p) ∨ False) ∧ explore start = some [after start] ∧
    infer 1 noGuess [0] [start] [after start] (fun _ => none) = some (.next [second] (lensOf [(0, f)])) ∧
    fixpointLoop 1 noGuess [0] explore 1 [second] (lensOf [(0, f)]) = some ([second], [after second], lensOf [(0, f)]) ∧
    Step (start.maps' world env) ((start.maps' world env).put 0 0 (some 1)) := by
  obtain ⟨f, h1, h2⟩ := stops
  refine ⟨f, fun A R he _ hd _ => ⟨explore_suitable A R he hd, by simp⟩, start_describes world env rfl (fun _ _ => rfl) (fun _ => rfl), ?_, by simp [explore], h1, h2, rfl, ?_⟩
  · simp [start, Vacuous, IB.sem]
  · have : {k | (start.maps' world env 0 k).isSome = true} = ∅ := by
      ext k; simp [State.maps', State.contentAt, start, content, world]
    rw [this]
    simp

end Verif.Props
