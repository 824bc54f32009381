/- The statistics of a run (C96). -/
import Verif.Tool.Statistics

set_option autoImplicit false

namespace Verif.Props.StatisticsProofs
open Verif.Tool.Statistics

theorem find_store (values : List (String × Val)) (name : String) (v : Val) (k : String) :
    find (store values name v) k = if k = name then some v else find values k := by
  unfold find store
  split
  · rename_i h
    induction values with
    | nil => simp at h
    | cons p ps ih =>
      simp only [List.map_cons, List.find?_cons]
      by_cases hp : p.1 = name
      · by_cases hk : k = name
        · simp [hp, hk]
        · have h1 : (name == k) = false := by simpa using fun h => hk h.symm
          simp only [hp, beq_self_eq_true, if_true, h1, hk, if_false]
          clear ih h
          induction ps with
          | nil => rfl
          | cons q qs ih =>
            simp only [List.map_cons, List.find?_cons]
            by_cases hq : q.1 = name
            · simp only [hq, beq_self_eq_true, if_true, h1]
              exact ih
            · simp only [beq_eq_false_iff_ne.2 hq, Bool.false_eq_true, if_false]
              cases q.1 == k <;> simp_all
      · have hn : (p.1 == name) = false := by simpa using hp
        have ha : (ps.any fun p => p.1 == name) = true := by simpa [hn] using h
        simp only [hn, Bool.false_eq_true, if_false]
        by_cases hk : p.1 = k
        · have : k ≠ name := fun h => hp (hk.trans h)
          simp [hk, this]
        · simp only [beq_eq_false_iff_ne.2 hk]
          exact ih ha
  · rename_i h
    rw [List.find?_append]
    by_cases hk : k = name
    · subst hk
      have : (values.find? fun p => p.1 == k) = none := by
        rw [List.find?_eq_none]; intro p hp; simp only [Bool.not_eq_true, List.any_eq_false] at h; simpa using h p hp
      simp [this]
    · have h1 : (name == k) = false := by simpa using fun h => hk h.symm
      simp [hk, h1]

theorem keys_store (values : List (String × Val)) (name : String) (v : Val) :
    (store values name v).map (·.1) = if name ∈ values.map (·.1) then values.map (·.1) else values.map (·.1) ++ [name] := by
  unfold store
  have : (values.any fun p => p.1 == name) = decide (name ∈ values.map (·.1)) := by
    rw [Bool.eq_iff_iff]; simp [List.any_eq_true]
  rw [this]
  by_cases h : name ∈ values.map (·.1)
  · simp only [h, decide_true, if_true, List.map_map]
    apply List.map_congr_left
    intro p hp
    simp only [Function.comp]
    split
    · rename_i h; exact (by simpa using h : p.1 = name).symm
    · rfl
  · simp [h]

theorem find_some_iff (values : List (String × Val)) (k : String) : (find values k).isSome = true ↔ k ∈ values.map (·.1) := by
  unfold find
  rw [Option.isSome_map, List.find?_isSome]
  simp

def NodupKeys (s : Stats) : Prop := (s.values.map (·.1)).Nodup

theorem nodup_store {values : List (String × Val)} (h : (values.map (·.1)).Nodup) (name : String) (v : Val) : ((store values name v).map (·.1)).Nodup := by
  rw [keys_store]
  split
  · exact h
  · rename_i hn
    rw [List.nodup_append]
    exact ⟨h, by simp, fun a ha b hb => by simp only [List.mem_singleton] at hb; subst hb; rintro rfl; exact hn ha⟩

theorem nodup_apply {s s' : Stats} {ev : Event} (h : NodupKeys s) (ha : apply s ev = some s') : NodupKeys s' := by
  cases ev with
  | start name now =>
    simp only [apply, workStart] at ha
    split at ha <;> simp only [Option.some.injEq, reduceCtorEq] at ha
    subst ha; exact h
  | stop now =>
    simp only [apply, workEnd] at ha
    split at ha <;> simp only [Option.some.injEq, reduceCtorEq] at ha
    subst ha; exact nodup_store h _ _
  | value name n =>
    simp only [apply, setValue, Option.some.injEq] at ha
    subst ha; exact nodup_store h _ _

theorem nodup_after {evs : List Event} : ∀ {s s' : Stats}, NodupKeys s → after s evs = some s' → NodupKeys s' := by
  induction evs with
  | nil => intro s s' h ha; simp only [after, Option.some.injEq] at ha; subst ha; exact h
  | cons ev evs ih =>
    intro s s' h ha
    unfold after at ha
    split at ha
    · simp at ha
    · rename_i s1 h1
      exact ih (nodup_apply h h1) ha

theorem mem_insert (x y : String) (l : List String) : y ∈ insertSorted x l ↔ y = x ∨ y ∈ l := by
  induction l with
  | nil => simp [insertSorted]
  | cons a as ih =>
    unfold insertSorted
    split
    · simp only [List.mem_cons, ih]
      constructor
      · rintro (h | h | h) <;> simp [h]
      · rintro (h | h | h) <;> simp [h]
    · simp

theorem mem_sorted (y : String) (l : List String) : y ∈ sorted l ↔ y ∈ l := by
  unfold sorted
  induction l with
  | nil => simp
  | cons a as ih => simp only [List.foldr_cons, mem_insert, ih, List.mem_cons]

theorem insert_pairwise (x : String) (l : List String) (h : l.Pairwise (· < ·)) (hx : x ∉ l) : (insertSorted x l).Pairwise (· < ·) := by
  induction l with
  | nil => simp [insertSorted]
  | cons a as ih =>
    rw [List.pairwise_cons] at h
    simp only [List.mem_cons, not_or] at hx
    unfold insertSorted
    split
    · rename_i hlt
      rw [List.pairwise_cons]
      refine ⟨?_, ih h.2 hx.2⟩
      intro b hb
      rcases (mem_insert x b as).1 hb with rfl | hb
      · exact hlt
      · exact h.1 b hb
    · rename_i hlt
      have hxa : x < a := by
        rcases Std.lt_trichotomy x a with h | h | h
        · exact h
        · exact absurd h hx.1
        · exact absurd h hlt
      rw [List.pairwise_cons, List.pairwise_cons]
      refine ⟨?_, h⟩
      intro b hb
      rcases List.mem_cons.1 hb with rfl | hb
      · exact hxa
      · exact String.lt_trans hxa (h.1 b hb)

theorem sorted_pairwise (l : List String) (h : l.Nodup) : (sorted l).Pairwise (· < ·) := by
  unfold sorted
  induction l with
  | nil => simp
  | cons a as ih =>
    rw [List.nodup_cons] at h
    exact insert_pairwise a _ (ih h.2) (by rw [← mem_sorted a as] at h; exact h.1)

theorem after_append (evs more : List Event) : ∀ s, after s (evs ++ more) = (after s evs).bind fun s => after s more := by
  induction evs with
  | nil => intro s; rfl
  | cons ev evs ih =>
    intro s
    simp only [List.cons_append, after]
    cases apply s ev with
    | none => rfl
    | some s1 => exact ih s1

/-- The time recorded for a name after some phases, from what was recorded before. -/
theorem phases (ps : List (String × Phase)) : ∀ s : Stats, s.current = none → (∀ k n, find s.values k ≠ some (.count n)) →
    ∃ s', after s (ps.flatMap fun p => p.2.events p.1) = some s' ∧ s'.current = none ∧ ∀ k, find s'.values k =
      if k ∈ ps.map (·.1) then some (plus (find s.values k) ((ps.filter fun p => p.1 = k).map fun p => p.2.end_ - p.2.begin_).sum)
      else find s.values k := by
  induction ps with
  | nil => intro s hc _; exact ⟨s, rfl, hc, fun k => by simp⟩
  | cons p ps ih =>
    intro s hc hn
    obtain ⟨name, ph⟩ := p
    have h0 : after s (ph.events name) = some ⟨none, store s.values name (plus (find s.values name) (ph.end_ - ph.begin_))⟩ := by
      simp [Phase.events, after, apply, workStart, workEnd, hc]
    have hp : ∀ v : Option Val, (∀ n, v ≠ some (.count n)) → ∀ d n, plus v d ≠ .count n := by
      intro v hv d n
      rcases v with _ | (t | n)
      · simp [plus]
      · simp [plus]
      · simp [plus]
    have hpp : ∀ v : Option Val, (∀ n, v ≠ some (.count n)) → ∀ d e, plus (some (plus v d)) e = plus v (d + e) := by
      intro v hv d e
      rcases v with _ | (t | n)
      · simp [plus]
      · simp [plus, Int.add_assoc]
      · exact absurd rfl (hv n)
    obtain ⟨s', h1, h2, h3⟩ := ih ⟨none, store s.values name (plus (find s.values name) (ph.end_ - ph.begin_))⟩ rfl (by
      intro k n
      simp only [find_store]
      split
      · intro h; exact hp _ (hn name) _ n (Option.some.inj h)
      · exact hn k n)
    refine ⟨s', ?_, h2, ?_⟩
    · rw [List.flatMap_cons, after_append, h0]; exact h1
    · intro k
      rw [h3 k]
      simp only [find_store, List.map_cons, List.mem_cons]
      by_cases hk : k = name
      · subst hk
        simp only [if_true, true_or, decide_true, List.filter_cons_of_pos, List.map_cons, List.sum_cons]
        split
        · rw [hpp _ (hn k)]
        · rename_i hm
          have : (ps.filter fun p => p.1 = k) = [] := by
            rw [List.filter_eq_nil_iff]; intro q hq h; exact hm (List.mem_map.2 ⟨q, hq, by simpa using h⟩)
          simp [this]
      · have hk' : ¬ name = k := fun h => hk h.symm
        simp only [hk, if_false, false_or, hk', decide_false, Bool.false_eq_true, not_false_eq_true, List.filter_cons_of_neg]

end Verif.Props.StatisticsProofs

namespace Verif.Props
open Verif.Tool.Statistics

/-- **C96** The time of some work is the sum of the times of its phases, and nothing else is recorded. -/
theorem C96_sums (ps : List (String × Phase)) :
    ∃ s, after fresh (ps.flatMap fun p => p.2.events p.1) = some s ∧ s.current = none ∧ ∀ k, find s.values k =
      if k ∈ ps.map (·.1) then some (.time ((ps.filter fun p => p.1 = k).map fun p => p.2.end_ - p.2.begin_).sum) else none := by
  obtain ⟨s, h1, h2, h3⟩ := StatisticsProofs.phases ps fresh rfl (by intro k n; simp [fresh, find])
  refine ⟨s, h1, h2, fun k => ?_⟩
  rw [h3 k]
  simp [fresh, find, plus]

/-- **C96** Work cannot begin inside other work, nor end twice, whatever was done before. -/
theorem C96_one_at_a_time (evs more : List Event) (s : Stats) (h : after fresh evs = some s) :
    (∀ name now name' now', after fresh (evs ++ .start name now :: .start name' now' :: more) = none) ∧
    (∀ name n name' now now', after fresh (evs ++ .start name now :: .value name' n :: .start name' now' :: more) = none) ∧
    (∀ now now', after fresh (evs ++ .stop now :: .stop now' :: more) = none) ∧
    (s.current = none → ∀ now, after fresh (evs ++ .stop now :: more) = none) ∧
    (∀ w, s.current = some w → ∀ name now, after fresh (evs ++ .start name now :: more) = none) := by
  obtain ⟨c, v⟩ := s
  refine ⟨?_, ?_, ?_, ?_, ?_⟩
  all_goals intros; rw [StatisticsProofs.after_append, h]
  all_goals rcases c with _ | ⟨a, b⟩ <;> simp_all [after, apply, workStart, workEnd, setValue]

/-- **C96** The names of the columns are those recorded, each once and in order; each value is under its name. -/
theorem C96_columns (evs : List Event) (s : Stats) (h : after fresh evs = some s) :
    (columns s).1.Pairwise (· < ·) ∧
    (∀ k, k ∈ (columns s).1 ↔ ∃ v, find s.values k = some v) ∧
    (columns s).2.length = (columns s).1.length ∧
    (∀ (i : Nat) (k : String) (v : Val), (columns s).1[i]? = some k → find s.values k = some v → (columns s).2[i]? = some (toStr v)) := by
  have hn : StatisticsProofs.NodupKeys s := StatisticsProofs.nodup_after (s := fresh) (by simp [StatisticsProofs.NodupKeys, fresh]) h
  refine ⟨StatisticsProofs.sorted_pairwise _ hn, ?_, by simp [columns], ?_⟩
  · intro k
    simp only [columns, StatisticsProofs.mem_sorted]
    rw [← StatisticsProofs.find_some_iff, Option.isSome_iff_exists]
  · intro i k v hk hv
    simp only [columns] at hk
    simp [columns, List.getElem?_map, hk, hv]

/-- Two phases of one name and one of another, and a number. -/
example : ∃ s, after fresh [.start "b" 1, .stop 4, .start "a" 10, .value "n" 3, .stop 20, .start "b" 30, .stop 31] = some s ∧
    (columns s).1 = ["a", "b", "n"] :=
  ⟨_, rfl, by decide +kernel⟩

/-- The time of a phase. -/
private def C96.took (p : Phase) : Int := p.end_ - p.begin_

private theorem C96.iterations (its : List (Phase × Phase)) : ∀ a b : Int,
    after ⟨none, [("symbex", .time a), ("infer", .time b)]⟩ (its.flatMap iteration) =
      some ⟨none, [("symbex", .time (a + (its.map fun p => C96.took p.1).sum)), ("infer", .time (b + (its.map fun p => C96.took p.2).sum))]⟩ := by
  induction its with
  | nil => intro a b; simp [after]
  | cons it its ih =>
    intro a b
    rw [List.flatMap_cons, StatisticsProofs.after_append]
    have : after ⟨none, [("symbex", .time a), ("infer", .time b)]⟩ (iteration it) =
        some ⟨none, [("symbex", .time (a + C96.took it.1)), ("infer", .time (b + C96.took it.2))]⟩ := by
      simp [iteration, Phase.events, after, apply, workStart, workEnd, store, find, plus, C96.took]
    rw [this]
    simp only [Option.bind_some, ih, List.map_cons, List.sum_cons, Int.add_assoc]

private theorem C96.executed (init : Phase) (its : List (Phase × Phase)) (last : Phase × Phase) :
    ∃ before, after fresh (init.events "symbex" ++ its.flatMap iteration ++ last.1.events "symbex") = some before ∧ before.current = none ∧
      (∀ more : Int, ∃ vs, store before.values "infer" (plus (find before.values "infer") more) = vs ∧
        vs = [("symbex", .time (C96.took init + (its.map fun p => C96.took p.1).sum + C96.took last.1)),
          ("infer", .time ((its.map fun p => C96.took p.2).sum + more))]) ∧
      (∀ (n : Nat) (more : Int), store (store before.values "#invs" (.count n)) "infer" (plus (find (store before.values "#invs" (.count n)) "infer") more) =
          [("symbex", .time (C96.took init + (its.map fun p => C96.took p.1).sum + C96.took last.1))] ++
          (if its = [] then [("#invs", .count n), ("infer", .time more)]
           else [("infer", .time ((its.map fun p => C96.took p.2).sum + more)), ("#invs", .count n)])) := by
  cases its with
  | nil =>
    refine ⟨⟨none, [("symbex", .time (C96.took init + C96.took last.1))]⟩, ?_, rfl, ?_, ?_⟩
    · simp [fresh, Phase.events, after, apply, workStart, workEnd, store, find, plus, C96.took]
    · intro more; simp [store, find, plus]
    · intro n more; simp [store, find, plus]
  | cons it its =>
    refine ⟨⟨none, [("symbex", .time (C96.took init + ((it :: its).map fun p => C96.took p.1).sum + C96.took last.1)),
      ("infer", .time ((it :: its).map fun p => C96.took p.2).sum)]⟩, ?_, rfl, ?_, ?_⟩
    · rw [List.flatMap_cons, ← List.append_assoc, List.append_assoc _ _ (last.1.events _), StatisticsProofs.after_append]
      have : after fresh (init.events "symbex" ++ iteration it) =
          some ⟨none, [("symbex", .time (C96.took init + C96.took it.1)), ("infer", .time (C96.took it.2))]⟩ := by
        simp [fresh, iteration, Phase.events, after, apply, workStart, workEnd, store, find, plus, C96.took]
      rw [this]
      simp only [Option.bind_some]
      rw [StatisticsProofs.after_append, C96.iterations]
      simp [Phase.events, after, apply, workStart, workEnd, store, find, plus, C96.took, Int.add_assoc]
    · intro more; simp [store, find, plus]
    · intro n more; simp [store, find, plus]

/-- **C96** A run prints the number of invariants and the whole seconds of each kind of work, whatever the number of iterations. -/
theorem C96_run (init : Phase) (its : List (Phase × Phase)) (last : Phase × Phase) (invs : Nat) (verif : Phase) :
    printed (some (execution init its last (some invs))) (some verif) = some
      ["#invs\tinfer\tsymbex\tverif",
       toString invs ++ "\t" ++
       toString ((((its ++ [last]).map fun (p : Phase × Phase) => p.2.end_ - p.2.begin_).sum).tdiv 1000000) ++ "\t" ++
       toString ((init.end_ - init.begin_ + ((its ++ [last]).map fun (p : Phase × Phase) => p.1.end_ - p.1.begin_).sum).tdiv 1000000) ++ "\t" ++
       toString ((verif.end_ - verif.begin_).tdiv 1000000)] := by
  obtain ⟨before, h1, h2, -, h4⟩ := C96.executed init its last
  obtain ⟨c, v⟩ := before
  simp only at h2 h4
  subst h2
  simp only [printed, run, execution, lastIteration, Option.getD_some]
  rw [← List.append_assoc, ← List.append_assoc, ← List.append_assoc, List.append_assoc, List.append_assoc, List.append_assoc, StatisticsProofs.after_append, h1]
  simp only [Option.bind_some, List.cons_append, List.nil_append, Phase.events, after, apply, workStart, setValue, workEnd, h4]
  by_cases h : its = []
  · subst h
    simp only [if_true, store, find, plus]
    simp [toTsv, columns, sorted, insertSorted, find, toStr, String.intercalate, C96.took]
    exact ⟨by decide +kernel, rfl⟩
  · simp only [h, if_false, store, find, plus]
    simp [toTsv, columns, sorted, insertSorted, find, toStr, String.intercalate, C96.took]
    exact ⟨by decide +kernel, by rw [← Int.add_assoc]; rfl⟩

private theorem C96.header (names : List String) (s : Stats) (h : (columns s).1 = names) :
    ∃ line, Option.map toTsv (some s) = some ["\t".intercalate names, line] :=
  ⟨_, by rw [Option.map_some, toTsv, h]⟩

/-- **C96** What is printed depends on the run: there is no column for the work of an execution whose cached results are used,
none for a verification without a specification, and none for the invariants if no state reaches the end. -/
theorem C96_columns_vary (verif : Phase) :
    printed none (some verif) = some ["verif", toString ((verif.end_ - verif.begin_).tdiv 1000000)] ∧
    printed none none = some ["", ""] ∧
    (∀ init its last invs, ∃ line, printed (some (execution init its last (some invs))) none = some ["#invs\tinfer\tsymbex", line]) ∧
    (∀ init its last, ∃ line, printed (some (execution init its last none)) (some verif) = some ["infer\tsymbex\tverif", line]) := by
  refine ⟨?_, ?_, ?_, ?_⟩
  · simp [printed, run, fresh, Phase.events, after, apply, workStart, workEnd, store, find, plus, toTsv, columns, sorted, insertSorted, toStr,
      String.intercalate]
    exact ⟨rfl, rfl⟩
  · rfl
  · intro init its last invs
    obtain ⟨⟨c, v⟩, h1, h2, -, h4⟩ := C96.executed init its last
    simp only at h2 h4
    subst h2
    simp only [printed, run, execution, lastIteration, Option.getD_some]
    rw [← List.append_assoc, ← List.append_assoc, ← List.append_assoc, List.append_assoc, List.append_assoc, List.append_assoc,
      StatisticsProofs.after_append, h1]
    simp only [Option.bind_some, List.cons_append, List.nil_append, after, apply, workStart, setValue, workEnd, h4]
    apply C96.header ["#invs", "infer", "symbex"]
    by_cases h : its = []
    · simp [h, columns, sorted, insertSorted]
    · simp [h, columns, sorted, insertSorted]
  · intro init its last
    obtain ⟨⟨c, v⟩, h1, h2, h3, -⟩ := C96.executed init its last
    simp only at h2 h3
    subst h2
    simp only [printed, run, execution, lastIteration, Option.getD_some]
    rw [← List.append_assoc, ← List.append_assoc, ← List.append_assoc, List.append_assoc, List.append_assoc, List.append_assoc,
      StatisticsProofs.after_append, h1]
    obtain ⟨vs, h5, h6⟩ := h3 (last.2.end_ - last.2.begin_)
    subst h6
    simp only [Option.bind_some, List.cons_append, List.nil_append, Phase.events, after, apply, workStart, workEnd, h5]
    apply C96.header ["infer", "symbex", "verif"]
    simp [columns, sorted, insertSorted, store]

/-- A run of two iterations whose last finds 7 invariants: its times are added before they are truncated. -/
example : printed (some (execution ⟨0, 600000⟩ [(⟨600000, 1000000⟩, ⟨1000000, 1900000⟩)] (⟨2000000, 5500000⟩, ⟨6000000, 6200000⟩) (some 7)))
    (some ⟨7000000, 7999999⟩) = some ["#invs\tinfer\tsymbex\tverif", "7\t1\t4\t0"] := by
  rw [C96_run]; decide +kernel

end Verif.Props
